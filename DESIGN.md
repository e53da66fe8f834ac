# Formal model of cpp-rotor

The source under study is `/repo` (basiliscos/cpp-rotor at the pinned commit). It was read as
text; nothing was compiled or run. The model is written in Lean 4 (`lean/`), one directory per
area of the code under `lean/Verif/`:

* `Model.lean`: the functions of the C++ code, one Lean definition each, with file and lines;
  the comment at the top lists the sources and every simplification;
* `Spec.lean`: what the English property means, without reference to the model's helpers
  (small areas have this at the top of `Props.lean`);
* `Props.lean`: the property theorems, named `Cxx_…`, with concrete non-trivial cases beside
  them or in `Cases.lean`;
* the remaining files: simulation lemmas, invariants and other proof machinery.

A theorem whose name ends in `_partial` proves less than the English claim; the note in
`MANIFEST.json` says what is missing. A theorem whose name ends in `_counterexample` is a
concrete execution of the model that contradicts the claim (or shows that a hypothesis is
needed): the code does not do what the property says there. `seeded/LOG.jsonl` records the wrong
programs the theorems were tried against. Its field `failed` lists the declarations that no longer
compile; when these are lemmas, the theorems that need them fail with them, but that alone only
shows that the proof depends on the edited line, not that the statement excludes the wrong
program. Where a field `refuted` is present, the wrong program was also executed, on random
executions, and the field lists the theorems whose statements are false for it (an empty list: none was found;
a `note` then says why).

## Conventions of the model

* One Lean function per C++ function. A method that mutates the object becomes a function that
  returns the new object. What is observed from outside is collected in a log, newest first.
* Undefined behaviour is a result of its own (`Except Err`/`Fault`): failed `assert`s, `.at()` on
  a missing key in a `noexcept` function, dereferencing `end()`, use of an invalidated iterator or
  of a destroyed object, unbounded recursion. Theorems either prove it unreachable or state when
  it is reached.
* `std::unordered_map` is an association list (`Verif/Basic/AMap.lean`). Iteration order of an
  unordered container is unspecified in C++; the theorems hold for the stored order whatever it is.
* Identities of objects (addresses, handlers, actors, messages) are natural numbers or an
  arbitrary type with decidable equality; identity of pointers is equality of identities.
* Arithmetic is over `Nat`/`Int` unless a property is about overflow, where machine widths are
  used.
* User code (handlers, factories, callbacks, plugins of the user) is an arbitrary function, an
  arbitrary choice of the next step, or an oracle argument of an operation: theorems quantify
  over it.
* Threads interleave; each operation on an atomic, lock-free queue, mutex or condition variable
  is one step.

## Plan per property

| id | property | model | how it is proved | status |
|----|----|----|----|----|
| C01 | Dispatch reaches exactly the live subscriptions | `Subscription` | refinement of the two-level table (`materialize`, `forget`, `get_recipients`) to a plain list of live subscriptions, for every sequence of operations | proved |
| C02 | Unsubscription is precise and leaves no residue | `Subscription` | same refinement; the table is empty iff no subscription is live | proved |
| C03 | Tagging a handler as blocking keeps its subscription | `Subscription` | in-place replacement by case analysis; for nested supervisors the assertion always fails, also a theorem | partial |
| C04 | Messages are dispatched in send order, once each | `Net` | any number of localities, arbitrary handlers and schedulers: the dispatch log is a prefix of the send log, by induction over steps | proved |
| C05 | Per-sender FIFO between any two actors, across event loops | `Net` | invariant "sent = dispatched ++ in transit", projected on a sender and a destination | proved |
| C06 | Handlers run only inside their own locality | `Net` | invariant over the log of handler executions | proved |
| C07 | A foreign call is executed only for a live subscription of a live actor | `Net` | log invariant on wrapped calls; a stale entry of a plugin is the counterexample | partial |
| C08 | A routed message takes its second hop exactly once, after its first | `Routing` | holders of one message, test and release as two steps, all interleavings: safety by invariant, liveness under the hypothesis that is shown necessary | partial |
| C09 | At most one response per request | `Requests` | invariant: request map, timers, queue and log agree, arbitrary peers | proved |
| C10 | Every request is resolved | `Requests` | accounting invariant, and termination of the queue by a measure; the end of an actor only appends events that resolve nothing | proved |
| C11 | Late and duplicate replies are discarded without effect | `Requests` | a reply without a pending request changes nothing (state equality) | proved |
| C12 | Responses keep the send order of the replier | `Requests` | invariant on the front of the queue (`uplift_last_message`) | proved |
| C13 | Request identifiers are never shared | `RequestIds`, `Requests` | counter of any width with wrap-around; counterexamples for every width | partial |
| C14 | A shut-down actor has no pending timers or requests | `Requests` | loop invariants of the two cancellation loops, callbacks arbitrary | proved |
| C15 | Timers never fire early and fire in deadline order | `ThreadTimers` | sortedness invariant of the timer list, re-entrant callbacks, blocking handlers with calm callbacks | partial |
| C16 | Each timer calls back exactly once | `ThreadTimers` | exactly-once log, also with blocking handlers; divergence and failing assertion while a blocking handler runs are counterexamples | partial |
| C17 | The thread event loop neither oversleeps nor misses a message | `ThreadLoop` | interleavings of poll, lock, re-check, wait with any number of senders: invariant on messages without a wake-up | proved |
| C18 | Messages from other threads reach every supervisor of the loop | `ThreadLoop` | queue invariant for the root; for nested supervisors the message is never taken in any continuation | partial |
| C19 | The FLTK backend never loses a wake-up | `Fltk` | counting invariant of the wake-up counter; two contexts are the counterexample | partial |
| C20 | The registry behaves as a map from names to addresses | `Registry` | refinement of the registry to a finite map and a list of promises, for every sequence of messages | proved |
| C21 | A name can be held by one address only | `Registry` | refinement of the registry to a finite map and a list of promises, for every sequence of messages | proved |
| C22 | Withdrawing an address withdraws exactly its names | `Registry` | refinement of the registry to a finite map and a list of promises, for every sequence of messages | proved |
| C23 | Delayed discovery is answered exactly once | `Registry` | refinement of the registry to a finite map and a list of promises, for every sequence of messages | proved |
| C24 | Initialization and shutdown wait for acquired resources | `Resources` | refinement to counters; machine arithmetic for the overflow | partial |
| C25 | A spawner never exceeds its attempt limit | `Spawner` | one spawner in an arbitrary environment: history invariants over all event sequences | proved |
| C26 | Restart policies mean what they say | `Spawner` | one spawner in an arbitrary environment: history invariants over all event sequences | proved |
| C27 | Instances are not created faster than the restart period | `Spawner` | one spawner in an arbitrary environment: history invariants over all event sequences | proved |
| C28 | Spawner failures escalate exactly when asked to | `Spawner` | one spawner in an arbitrary environment: history invariants over all event sequences | partial |
| C29 | The actor state only moves forward | `Lifecycle` | every step of the actor moves the state forward or leaves it | partial |
| C30 | Plugins vote in order and everyone has to agree | `Lifecycle` | the plugins are arbitrary functions of the history: log invariant of the polls | partial |
| C31 | Lifecycle requests are answered exactly once | `Lifecycle` | counting of answers in the log | partial |
| C32 | Shutdown completes only when all subscriptions are gone | `Lifetime` | invariant between points, table and queue of unsubscriptions; termination by a measure | proved |
| C33 | The first shutdown reason wins | `Lifecycle` | log invariant | proved |
| C34 | A supervisor is initialized only after its children | `Children` | one supervisor, any number of children and spawners; simulation by small steps, then invariants | proved |
| C35 | A supervisor is shut down only after its children | `Children` | as C34, with a waiting invariant: who is waited for | partial |
| C36 | One shutdown request per child instance | `Children` | counting of requests in the log; causes as an invariant of one step | proved |
| C37 | Synchronized start is a barrier | `Children` | log invariants and a waiting invariant | partial |
| C38 | A failing child init is handled by policy | `Children` | case analysis of the steps and log invariants | partial |
| C39 | Escalation and auto-shutdown flags | `Lifecycle` | decision logic of `shutdown_start` | proved |
| C40 | A linked server outlives its clients | `Link` | any number of actors, links in any direction, all interleavings: invariant over both ends of a link; completion by well-founded induction | proved |
| C41 | Every link request is answered exactly once | `Link` | counting of answers; waiting invariant | partial |
| C42 | A client is initialized only after all its links are established | `Link` | waiting invariant of the link client | partial |
| C43 | Unlinking terminates the link on both sides once | `Link` | invariant over both ends of a link and the messages between | partial |
| C44 | Response addresses are private per requester and response type | `AddressMapping` | refinement to a partial function | partial |
| C45 | Error chains report the root cause | `ExtendedError` | induction over the chain on the heap | proved |
| C46 | Inspected delivery is equivalent to plain delivery | `Inspect` | the two loops are simulated against each other, world and handlers arbitrary | proved |
| C47 | Localities are the maximal connected groups of one event loop | `Locality` | induction over trees of supervisors | proved |
| C48 | Only well-formed configurations create actors | `Config` | mask invariant over sequences of builder calls | proved |
| C49 | Name discovery in an actor's init | `RegPlugin` | one actor with its registry plugin and link client; simulation by small steps, then invariants over all orders of answers | partial |
| C50 | The external shutdown flag shuts the supervisor down once | `ShutdownFlag` | induction over polls | proved |
| C51 | Message types are distinguished by identity | `TypeRegistry` | invariant of the interning map | proved |
| C52 | Timers of event-loop backends are forgotten exactly once | `LoopTimers` | exactly-once log over all event sequences, all four backends | proved |
| C53 | A whole tree becomes operational or shuts down | `Tree` | the supervisors of `Children` composed along a tree: invariants per edge, induction over the tree; a potential over all actors of the tree that every step decreases (user actions and creations pay for what they add) bounds the executions, and a case analysis on what is under way gives the next step | partial |
| C54 | Subscriptions to addresses of other localities stay consistent | `Net` | invariant over the two supervisors and the protocol messages under way | partial |
| C55 | Messages about children find their records | `Children` | records, timers and messages about a child agree: invariant over all runs | partial |
| C56 | Event-loop backends never forget a message of another thread | `AsioLoop`, `EvLoop`, `WxLoop` | senders and one event loop as interleaved atomic steps; a pending wake-up for every waiting message is an invariant | partial |
| C57 | An actor is initialized only when its handlers are in effect | `Starter` | one actor with its starter plugin, the other plugins arbitrary; invariant: what is under way is tracked | partial |
| C58 | A spawner has at most one living instance | `Children` | `Children` with a ghost map from children to spawners: the records of living children have distinct spawners (invariant), a living child has a record | proved |
| C59 | An actor is not destroyed before its shutdown and not kept after it | `Children`, `Lifetime` | entries with a handler of the actor counted in the states of `Lifetime`: zero after the shutdown, by the invariants behind C32; the records of `Children` agree with what is under way about a child | proved |
| C60 | Every supervisor uses the registry of the nearest supervisor that has one | `RegTree` | a tree of supervisors under construction with the stack of running do_initialize calls; invariant, then induction along the parents | partial |
| C61 | User code may change the tables the library is walking over | `Reentry` | containers with an identity of their memory (allocation and capacity, buckets and epoch) and arbitrary growth; the range-for loop with its stored end is shown equal to the plain loop over the list at the beginning, by induction over the handlers with an invariant on the list; converse theorems when the room does not suffice | partial |
| C62 | A redirected message arrives where it was redirected to | `Redirect` | message objects in a heap, queue of references, arbitrary handlers; invariant puts = dispatched ++ waiting (with the addresses the objects have now); every turn dispatches exactly one message; a second invariant (every object is in the queue at most once) discharges the condition for one handler per address | partial |
| C63 | Unsubscribing a handler stops this handler and no other | `HandlerId` | the containers of the lifetime and starter plugins with the comparison of handlers as written; refinement: the table without what is being removed is the list of wanted subscriptions (invariant on keys and objects, induction over the operations); a weaker invariant for all runs | partial |
| C64 | A shutdown reason leads to the root cause | `Reasons` | errors travelling in a tree, messages in any order; an inductive predicate describes chains that walk through the tree to a cause, invariant over reasons and messages | partial |
| C65 | boost.asio: the code of a locality is never run by two threads at once | `Strands` | threads, strands and closures; every label of the transition system is the code of one step; invariants: closures and running code belong to the strand they are in, one thread per strand, completions = calls ++ waiting closures | partial |
| C66 | A message is destroyed once, when nothing refers to it any more | `MsgCount` | counters and all places that refer to messages; invariant: the counter of a message is the number of references to it, with the references of the function being executed as a parameter | proved |
| C67 | A child that does not stop cannot block the shutdown of its supervisor | `ShutTimeout` | one supervisor with any number of children, messages in order per child, requests with timers; invariant: the state of the record says where the one answer or timeout of the child is; a measure on the messages for the end of the shutdown | partial |
| C68 | The event loop keeps a supervisor exactly as long as it has work for it | `SupRefs` | the counter of one supervisor, the containers of each backend and a stack of calls under way; invariant: counter = references counted by their places | partial |
| C69 | The FLTK backend leaves no message behind | `FltkLoop` | one FLTK context with its queues as lists of messages; invariants on the counter, the order and the origin of what is in the queue; refinement to the model of C19 | partial |
| C70 | The loop of the thread backend returns exactly when the root supervisor has shut down | `ThreadLoop` | the loop of C17 with the condition at both of its places: invariant that the state of the root supervisor determines the last steps of the loop | proved |
| C71 | configure is called once per plugin and phase, when everything before it is ready | `Configure` | activation and polling of a list of plugins of arbitrary kinds, arbitrary user code and votes; invariant: calls of configure per plugin and phase, order of the log | partial |
| C72 | A supervisor takes itself apart completely, its children first | `SupTeardown` | a supervisor with arbitrary further plugins, the early deactivation of the plugin for foreign subscribers, its queue of unsubscriptions, records and mapped addresses, and the nested calls of shutdown_continue; invariants for the time before, during and after the deactivation of the plugins; measures for the end | partial |
| C73 | A chain of spawn settings spawns exactly once, with the values said last | `SpawnBuilder` | objects with their fields and the calls made, operations in any order; induction over the history with the last operation last | partial |
| C74 | The text of a message tells what it is, and the level of inspection hides nothing else | `Texts` | texts as lists of characters, one constructor per type of message; decoding of the first word, cancellation of common parts, induction over the nesting of handler calls | proved |
| C75 | Tagging a handler changes how it is called and nothing else | `Intercept` | handlers as chains of wrappers, the two tables that hold them, calls underway; invariant over histories: base and top tag of each handler | partial |
| C76 | With guard_context the loop of boost.asio runs until the supervisor has shut down, and then ends | `AsioGuard` | one io_context with its counter of work, guards, deferred closures, waits of timers and running closures, and any threads; invariant: the counter counts exactly these; a measure for the end | proved |
| C77 | An error tells who failed and why | `Naming` | texts as lists of characters; the codes with their texts, identities as made by the calls in configure, living actors with their addresses, chains of errors; decoding from the right (code) and from the left (arrow), induction over the chain | proved |
| C78 | Messages left in the queues of a supervisor that is destroyed are released, and those with a second destination go on | `Drain` | references to messages in queues, loops and user code; wrapped calls with the supervisor of their handler; destructors of supervisors and contexts one message at a time; invariants on references, routes and the log, an invariant on who is still needed, a measure for the loops | partial |
| C79 | A supervisor that shuts down deals with subscribers from other localities without faults and without waiting for them | `Farewell` | one supervisor with the three handlers of the plugin, its queue, one channel per foreign locality and the table of subscriptions; invariant: the wishes about a subscription on their way alternate and begin with what the table has, unsubscription messages of the plugin are adjacent; counts of events | partial |
| C80 | Giving up the initialization of a child takes back this request and no other | `InitCancel` | a tree of supervisors with the counters of their localities, timers_map, request_map and active_requests, and the requests for initialization under way and held; invariant: numbers are unique in a locality, the two tables agree, a held number was drawn by the one who asks; everything else follows from one lemma about the end of one number; two counterexamples | partial |
| C81 | All supervisors of a system context print their messages with one stringifier | `TextMaker` | the steps of get_stringifier (read, make, assign, return) of any number of activities in any interleaving, creation of the root and of child supervisors; invariant: somebody has the object, or at most one activity is in the function; a counterexample for calls before the root | partial |
| C82 | Requests between event loops are answered once, to the right one, in order | `Across` | any number of localities with queue, inbound queue and counter, tables of requests per supervisor, ghost numbers on messages; invariants: what is seen, queued, inbound and still in the queue of the sender is increasing for each sender and locality; responses on their way and seen add up to those made; a weight of the queue that each turn reduces, and with it progress in fair unending executions; a counterexample for responses to other localities | partial |

## What is modelled, and what is not

| area | code | main simplifications |
|----|----|----|
| `Subscription` | `subscription.cpp`, `subscription_point.cpp`, parts of `handler.cpp`, `supervisor.cpp:90-109` | iteration while the list changes is in `Net` (outcome `iter`) |
| `Net` | `supervisor.h:182-184, 445-469`, `delivery.cpp:39-50`, `foreigners_support.cpp:49-94`, `lifetime.cpp:57-128`, `plugin_base.cpp:65-97` | one inbound queue per locality; library messages are handed to their plugin directly |
| `Inspect` | `supervisor.h:445-498`, `delivery.cpp:39-50, 114-135` | `dump_message` is arbitrary; the loop has fuel |
| `Routing` | `supervisor.h:457-462`, `messages.cpp:13-20`, `message.h:145-151` | one message and its references |
| `Requests`, `RequestIds` | `supervisor.h:336-344, 378-392, 511-565`, `supervisor.cpp:121-171`, `actor_base.cpp:121-145, 257-268` | event-loop timers may fire at any time |
| `AddressMapping` | `address_mapping.cpp`, `supervisor.h:511-565`, `child_manager.cpp:335-358, 423-438` | |
| `ThreadTimers`, `ThreadLoop` | `system_context_thread.cpp`, `supervisor_thread.cpp` | sequentially consistent steps; intervals are not negative |
| `Configure` | `actor_base.cpp:33-101, 147-168`, `activate`/`handle_init` of every plugin | when a plugin agrees and what `configure` does is arbitrary; which plugin is configured when is as written |
| `Fltk` | `system_context_fltk.cpp:27-58` | `Fl::awake` does not fail |
| `FltkLoop` | `system_context_fltk.cpp:27-58`, `supervisor_fltk.cpp:32-49, 79-103` | one context; handlers do not run the loop of FLTK |
| `LoopTimers` | `supervisor_asio.cpp`, `supervisor_ev.cpp`, `supervisor_fltk.cpp`, `supervisor_wx.cpp` (timers) | the event loop is the set of armed timers |
| `EvLoop` | `supervisor_ev.cpp` (enqueue, on_async, shutdown_finish, timer_cb) | how long the loop polls is a choice; libev: marked, collected, called back |
| `AsioLoop` | `supervisor_asio.cpp` (enqueue, do_process, shutdown_finish), `forwarder.hpp:130-217` | the strand runs its closures one at a time and in order |
| `WxLoop` | `supervisor_wx.cpp:32-75` | `CallAfter` is a FIFO of closures; no nested event loops |
| `Starter` | `starter.cpp`, `supervisor.h:428-443`, `supervisor.cpp:90-105`, `actor_base.cpp:97-103, 147-168, 206-222` | one actor; the other plugins are oracles |
| `RegTree` | `supervisor.cpp:25-32, 53-67`, `supervisor_config.h:134-140` | supervisors only |
| `Redirect` | `actor_base.cpp:48-52`, `include/rotor/supervisor.h:182, 367-374, 445-469` | one locality, one message type, fixed subscriptions |
| `Reasons` | `actor_base.cpp:35-46, 105-119, 270-279`, `supervisor.cpp:76-88`, `child_manager.cpp:93-163, 213-312, 362-417`, `link_client.cpp:101-126` | only the reasons; messages in any order, actors exist from the beginning |
| `HandlerId` | `handler.h:115-366`, `subscription_point.cpp:24-37`, `lifetime.cpp:57-128`, `plugin_base.cpp:65-97`, `starter.cpp:42-53`, `supervisor.h:393-443, 502-509` | comparison of handlers; one locality, actors that are not shutting down |
| `Strands` | `forwarder.hpp:113-217`, `supervisor_asio.cpp:36-133`, `locality.cpp:31-43`, `delivery.cpp:39-50`, `supervisor.h:445-469` | strands run closures one at a time and in order; subscriptions are choices |
| `SupRefs` | `supervisor_ev.cpp:32-140`, `supervisor_fltk.cpp:32-103`, `system_context_fltk.cpp:29-58`, `supervisor_wx.cpp:32-95`, `supervisor_asio.cpp:38-91` | references to one supervisor; callbacks of the loop do not overlap |
| `ShutTimeout` | `child_manager.cpp:84-164, 312-320, 335-438`, `supervisor.cpp:121-144`, `supervisor.h:531-565`, `system_context.cpp:28-35` | one supervisor; messages of a child arrive in order; plugins of the children are choices |
| `MsgCount` | `arc.hpp:15-29`, `supervisor.h:182, 445-452`, `supervisor.cpp:34-39, 165-171`, `system_context.cpp:43-50`, `enqueue` and the transfer of the inbound queue of every backend | steps are atomic; members of messages are older than the message; nobody sends to a destroyed supervisor |
| `Reentry` | `plugin/delivery.cpp:39-50`, `subscription.cpp:25-104`, `actor_base.cpp:262-268`, `link_client.cpp:50-90` | containers with their memory; one delivery, one callback |
| `Registry` | `registry.cpp` | |
| `RegPlugin` | `plugin/registry.cpp`, `plugin/registry.h`, parts of `link_client.cpp` | one actor; callbacks of the user only write variables |
| `Resources` | `plugin/resources.cpp` | |
| `Spawner` | `child_info.cpp`, `child_manager.cpp` (spawn, on_spawn, remove_child), `spawner.cpp` | one spawner, the supervisor is the environment |
| `Lifecycle` | `actor_base.cpp:35-46, 95-193, 270-274`, `init_shutdown.cpp`, `address_maker.cpp:36-49`, `starter.cpp:67-86` | plugins are arbitrary |
| `Lifetime` | `lifetime.cpp`, `plugin_base.cpp:30-97`, `actor_base.cpp:74-93, 121-145, 172-204, 224-244`, `supervisor.h:401-443` | an ordinary actor |
| `Children`, `Tree` | `child_manager.cpp:65-508`, `child_info.cpp`, `supervisor.cpp:53-117`, `actor_base.cpp:35-46, 95-193` | the other plugins are oracles; `cancel_init` of a nested supervisor is in `InitCancel`; `Children/Pot`, `Children/Cost`, `Tree/Bound`, `Tree/Rest` count steps; shutdown requests that time out are in `ShutTimeout`; `Children/Lines`: ghost map from children to spawners |
| `SupTeardown` | `child_manager.cpp:84-163, 293-346, 363-441`, `lifetime.cpp:46-133`, `plugin_base.cpp:30-97`, `actor_base.cpp:74-93, 121-145, 172-244`, `address_mapping.cpp:13-60`, `supervisor.h:511-565`, `foreigners_support.cpp:81-94` | internal subscriptions made before the deactivation of the plugins; no spawners and timers (`Spawner`, `Children`); a request is sent when it is built |
| `Link` | `link_client.cpp`, `link_server.cpp`, `supervisor.cpp:121-144` | the other plugins are oracles; callbacks of links are in `RegPlugin` |
| `Config` | `actor_config.h`, `supervisor_config.h`, the configurations of the backends | |
| `Locality` | `locality.cpp`, `supervisor.cpp:41-51`, `address.hpp:38-53` | |
| `Intercept` | `handler.cpp`, `subscription_point.cpp:16-44`, `supervisor.cpp:119`, `supervisor_thread.cpp:32-44` | no unsubscription; the supervisor leads its locality |
| `AsioGuard` | `asio/supervisor_asio.cpp:29-97`, `supervisor_config_asio.h:31-34, 64-68` | one `io_context`; the rules of boost.asio on work and strands are assumptions; what closures do is a choice |
| `Naming` | `address_maker.cpp:36-72`, `error_code.cpp`, `error_code.h`, `extended_error.cpp:13-25`, `actor_base.cpp:281-284` | chains of errors without cycles (`ExtendedError` has the heap) |
| `Drain` | `messages.cpp:13-20`, `supervisor.cpp:34-39`, `system_context.cpp:43-50`, `supervisor.h:445-469`, `enqueue` of the thread, asio and ev backends | when a supervisor is destroyed is a choice; steps are atomic; wrapped calls have one reference |
| `Farewell` | `foreigners_support.cpp:30-94`, `lifetime.cpp:57-73`, `plugin_base.cpp:36-97`, `supervisor.cpp:90-109`, `subscription.cpp:25-45, 75-104`, `actor_base.cpp:74-93` | one supervisor; subscriptions are numbers, made once at a time; the removal on the side of the foreign actor is one step; other plugins are in `SupTeardown` |
| `InitCancel` | `child_manager.cpp:93-164, 202-208, 312-333, 379-409`, `supervisor.cpp:53-59, 121-144`, `supervisor.h:336-344, 379-392, 531-561`, `actor_base.cpp:97-101, 126-145, 257-268`, `init_shutdown.cpp:40-47`, `supervisor_thread.cpp:17-23`, `supervisor_ev.cpp:85-90` | responses, timeouts and the moments of giving up are oracles; the counter is unbounded (C13); the read of the field of a child in another thread is one step |
| `TextMaker` | `system_context.cpp:52-61`, `supervisor.h:351-365`, `delivery.cpp:28-37` | read, creation, assignment and return are one step each; the rest of the activation of a supervisor is left out |
| `Across` | `supervisor.h:182-184, 336-344, 445-469, 511-565, 593-613`, `request.hpp:20-33, 222-276`, `supervisor.cpp:121-144, 165-171`, `actor_base.cpp:121-145`, the inbound queue of every backend | one subscriber per address; timers expire at any time; numbers do not wrap around |
| `SpawnBuilder` | `spawner.h:30-72`, `spawner.cpp:21-52` | objects, settings and calls; the spawning itself is `Spawner` |
| `Texts` | `misc/default_stringifier.cpp`, `message_stringifier.cpp`, `plugin/delivery.cpp:52-135` | texts of addresses, types and errors are arbitrary; `atoi` without overflow |
| `ShutdownFlag` | `supervisor.cpp:69-88, 153-162` | |
| `ExtendedError` | `extended_error.cpp` | no reference counting |
| `TypeRegistry` | `message.cpp:14-25` | |

Not modelled: the C++ memory model; reference counting (except that of messages, C66) and the order of destructors (except where
a property is about them: `Routing`, `Drain`, `Inspect`, `ThreadTimers`, `LoopTimers`, `Lifetime/Held`); templates and
type-level dispatch (`handler.h`, `request.hpp`: a message reaches a handler of its type, types
are tokens, C51); the bodies
of boost, libev, wx, FLTK; start-up and shutdown of the event loops themselves
(`system_context_asio`, `system_context_ev`).

## Findings

Places where the code as it stands does not do what one would expect of it. Each is a theorem
unless marked *(reading only)*.

1. Tagging a handler of a nested supervisor's actor as blocking fails an assertion always
   (`C03_tag_nested_always_faults`).
2. A routed message may lose its second hop when two holders release it at the same time
   (`C08_lost_hop_counterexample`).
3. After a wrap-around request identities may be shared by timers and by requests of nested
   supervisors (`C13_…_counterexample`).
4. A timer of the thread backend that is started after a long handler is measured from the time
   the loop read last (`C15_stale_time_counterexample`); cancelling or restarting timers while a
   blocking handler runs fails an assertion or recurses for ever (`C16_…_counterexample`).
5. Messages to nested supervisors of the thread backend from other threads are never taken
   (`C18_nested_never_taken_counterexample`).
6. Two FLTK contexts in one process lose wake-ups (`C19_two_contexts_counterexample`).
7. A plugin that joins during a pass behind its turn is not awaited
   (`C30_late_joiner_counterexample`, and for links `C42_late_link_counterexample`).
8. Init and shutdown requests may be answered twice (`C31_init_twice_counterexample`,
   `C31_shutdown_twice_counterexample`, `C49_twice_counterexample`,
   `C49_revived_counterexample`).
9. A subscription made after the plugins were deactivated keeps the actor SHUTTING_DOWN for ever
   (`C32_late_subscription_counterexample`).
10. Children created, or restarted by a spawner, during the shutdown of their supervisor keep it
    from completing or survive it (`C35_…_counterexample`).
11. `synchronize_start`: a child created after the start is never started
    (`C37_late_counterexample`); the policy `shutdown_failed` takes the supervisor down when the
    failed child is removed during the initialization (`C38_failed_counterexample`).
12. `cancel_init` of a nested supervisor looks the identity of its parent's request up in its own
    `timers_map` (`child_manager.cpp:322-333, 385`): if the parent is in another locality, a request of
    somebody else may be discarded (`C80_apart_counterexample`) or an assertion fails
    (`C80_assertion_counterexample`); `has_initializing` and
    `cancel_init` read the state of child supervisors that may run in other threads
    *(reading only)*.
13. A link request kept by a server that shuts down before its start is never answered
    (`C41_kept_unanswered_counterexample`); expired link and unlink requests fail assertions
    (`C41_expired_link_counterexample`, `C43_expired_unlink_counterexample`); an unlink request
    kept by a client that has clients itself is forgotten
    (`C43_unlink_forgotten_counterexample`).
14. An unsubscribed entry of a plugin stays in `lifetime_plugin_t::points`: a foreign call may
    reach it (`C07_stale_counterexample`); anonymous subscriptions to foreign addresses are
    never confirmed properly (`C54_anonymous_counterexample`).
15. The registry plugin: a name found at an address that is linked already is never reported and
    the actor does not initialize (`C49_late_counterexample`); a shutdown while names are in
    flight fails assertions, uses destroyed tasks or waits for ever
    (`C49_registering_…`, `C49_discovering_…`, `C49_cancelled_…`, `C49_destroyed_…`,
    `C49_callback_…`, `C49_stays_counterexample`); `link_on_discovery` is not
    looked at (`registry.cpp:208-229`) *(reading only)*.
16. The timeout of an init request that expires after the child was asked to shut down
    dereferences a null actor (`C55_timeout_counterexample`).
17. Resources: the sum of the counters is an `int` and overflows (`C24_overflow_counterexample`).
18. Spawners: `escalate_failure` is not honoured for the policies `never` and `ask_actor`, and
    escalates a normal end of the last permitted instance (`C28_…_counterexample`).
19. libev: a message that another thread sends through a nested supervisor that has ended waits in
    the inbound queue until some other message wakes the loop (`C56_ev_late_counterexample`).
20. The starter plugin: a handler subscribed after the last confirmation, while another plugin holds
    the initialization, keeps the actor from initializing for ever (`C57_late_counterexample`,
    `C57_stuck`); a handler subscribed after the start cannot be subscribed again after an
    unsubscription (`C57_again_counterexample`); a confirmation that arrives after a failed init
    fails an assertion (`C57_failed_counterexample`).
21. A supervisor created in `configure` of a parent that creates the registry does not get its
    address (`C60_early_counterexample`).
22. A handler that subscribes another handler to the address and type of the message being delivered
    makes the loop read freed memory when the list has to grow (`C61_moved_faults`); an unsubscription
    there makes it read behind the end (`C61_removed_faults`); timer callbacks that start timers and
    link callbacks that ask for links make the library use an iterator after a rehash
    (`C61_timer_rehash_faults`, `C61_link_rehash_faults`), and so does a timer callback that cancels
    its own timer (`C61_timer_self_faults`).
23. Two handlers that redirect the same message send it twice to the second address and never to the
    first (`C62_two_handlers_counterexample`).
24. Handlers are compared by signature and actor: of two methods of one class (or two lambdas) for the
    same type of messages at the same address the one subscribed last is unsubscribed
    (`C63_latest_counterexample`, `C63_methods_counterexample`, `C63_lambdas_counterexample`), and
    subscribing both in `configure` fails an assertion (`C63_starter_counterexample`).
    `unsubscribe(&A::method)` fails in every actor that is not a supervisor
    (`C63_by_method_counterexample`).
25. Reasons are lost: a client that ends with its server does not name the server's reason
    (`C64_unlink_counterexample`); a child lost while its supervisor initializes leaves no trace in the
    supervisor's reason (`C64_lost_self_counterexample`), and with `shutdown_failed` its normal end
    becomes an abnormal end of the supervisor (`C64_lost_failed_counterexample`).
26. boost.asio: forwarders hold the actor and closures hold one supervisor, nothing holds the
    supervisor of the actor or the locality leader: an operation that completes late, a message to a
    nested supervisor that comes late, and a message to an address of a released supervisor follow
    dangling pointers (`C65_pending_operation_counterexample`,
    `C65_pending_callback_counterexample`, `C65_late_message_counterexample`,
    `C65_late_send_counterexample`).
27. A timer restarted in its own cancellation callback makes the loop of `shutdown_finish` endless
    (`C14_restart_on_cancel_counterexample`).
28. With an overridden `on_error` that returns, a child that did not confirm its shutdown in time is
    forgotten, but what it sends later is not expected: its own shutdown trigger throws from
    `actors_map.at` in a `noexcept` method (`C67_deaf_child_counterexample`), its requests make the
    supervisor fail an assertion later on (`C67_late_request_counterexample`), and a spawner creates
    the next instance beside it (`C67_two_instances_counterexample`).
29. libev: a nested supervisor that is woken up by a message from another thread and ends while it
    processes the queue is destroyed inside its own `on_async`, which then reads `poll_duration`
    (`C68_ev_on_async_counterexample`).
30. FLTK: what the callback of a timer sends (the answer to a request that has timed out, say) is not
    processed until a message of another thread arrives or the user calls `do_process`, as the
    examples do in their loops (`C69_timer_counterexample`; `supervisor_fltk.cpp:44` is commented out).
31. `configure`: a resource acquired in the phase PREINIT and released before the init request arrives
    makes `init_continue` fail its assertion that there is a request (`C71_early_release_counterexample`,
    `resources.cpp:73-75`); a second init request for an actor that is being initialized fails the one in
    `commit_plugin_activation` (`C71_second_request_counterexample`); functions given to `with_casted`
    for PREINIT are silently ignored for all plugins but two (`C71_preinit_ignored_counterexample`).
32. A supervisor without children that makes its first request while it is shutting down, in a handler
    not yet unsubscribed, is torn down by a null pointer: the subscription for the response outlives the
    child manager and the record of the supervisor (`C72_late_first_request_counterexample`,
    `child_manager.cpp:425-438`). With earlier requests it may instead stay `SHUTTING_DOWN` for ever
    (`C72_late_request_counterexample`).
33. `spawner_t` declares a destructor, which spawns, and therefore has a copy constructor and no move
    constructor. `auto s = sup.spawn(f).max_attempts(3);` copies the temporary, whose destructor spawns at
    once; `s` spawns again (`C73_kept_chain_counterexample`, `spawner.h:30-72`).
34. The level of link responses (3) is below that of link requests (5): at levels 3 and 4 answers are shown
    without their requests (`C74_link_level_counterexample`, `delivery.cpp:52-111`). The documentation shows
    subscriptions for `ROTOR_INSPECT_DELIVERY=1` (`docs/Design.md:265-275`); they need 9.
35. `tag_io` has no effect on subscriptions to addresses of other localities: `subscription_t::update` changes
    the handler in the record of the actor only, the foreign supervisor goes on sending calls of the untagged
    one (`C75_foreign_untagged`, `subscription.cpp:47-62`). On the thread backend such a handler blocks
    without the timers being updated.
36. boost.asio: without `guard_context` (the default) `io_context::run` returns as soon as nothing is left to do,
    while the supervisor is operational; a message that another thread is sending at that moment stays in the
    queue, and a later `shutdown()` has no effect (`C76_unguarded_counterexample`, `supervisor_asio.cpp:81-91`).
37. A message with a second destination (`make_routed_message`) that was wrapped for a handler in another thread is sent on
    by the destructor of the wrapped call, through the supervisor of the handler's actor, which nothing keeps alive. If the call
    is still in the inbound queue when that supervisor is destroyed, the destructor calls the pure virtual `enqueue` and the process is
    terminated (`C78_pure_virtual_counterexample`; with the thread backend and a nested supervisor that is the normal case because of
    finding 5); in the queue of the locality leader (libev) it uses the destroyed supervisor (`C78_dangling_counterexample`); in the inbound queue of the root
    supervisor of a thread context it locks a destroyed mutex (`C78_mutex_counterexample`).
38. When the last subscriber from another locality leaves while a supervisor is shutting down, `foreigners_support_plugin_t` deactivates itself at once,
    although the supervisor still has children: messages from addresses of other localities no longer reach them
    (`C79_early_counterexample`, `foreigners_support.cpp:91-93`), and new foreign subscribers get no answer (`C79_unanswered_counterexample`). A
    foreign subscriber that is still there when the supervisor shuts down is not told, and its later unsubscription is not heard: the
    table of the locality keeps the handler, and with it the actor, as long as the locality exists (`C79_left_over_counterexample`,
    `foreigners_support.cpp:41-47`, `lifetime.cpp:65`).
39. `system_context_t::get_stringifier` makes the stringifier without a lock. The library itself is safe, as the root supervisor asks before anybody else can
    (`C81_library`), but a call of the user in another thread before or during the creation of the root supervisor may destroy the object to which
    supervisors keep plain pointers (`C81_race_counterexample`, `C81_root_race_counterexample`, `system_context.cpp:52-57`).
40. A response that is asked for in another event loop (`request_via` with an address there) goes through the event loop of the one who asks, and can be overtaken by a message
    which the replier sends later to the same address (`C82_via_order_counterexample`, `supervisor.h:543-560`).

## Assertions of the code

Every run-time `assert` in `/repo/src` and `/repo/include`, with what the model says about it. "holds": a theorem says that
it cannot fail under the hypotheses written there; "can fail": a counterexample theorem makes it fail in a
legal run; "caller": it is a condition on the code of the user and stays one in the model.

| assertion | verdict |
|---|---|
| `actor_base.cpp:31` no plugin is being deactivated when the actor is destroyed | holds: `C59_deactivating` (until it has shut down, and as long as a plugin is being deactivated, the lifetime plugin owns a subscription that holds the actor; an actor given up in the middle of its shutdown stays in memory) |
| `actor_base.cpp:130`, `141` every plugin is deactivated at `shutdown_finish` | holds: `C32_no_fault` (actors), `C72_no_fault` (supervisors), under their restrictions on late subscriptions and requests; what a late one does instead is a hang (`C32_late_subscription_counterexample`, `C72_late_request_counterexample`) or a fault elsewhere (`C72_late_first_request_counterexample`) |
| `actor_base.cpp:67` plugin to be configured is among the activating ones | holds for one init request: `C71_no_fault_partial`; can fail: `C71_second_request_counterexample` |
| `actor_base.cpp:148` state at `init_continue` | holds: `C71_no_fault_partial`, `C57_safe_partial` under their hypotheses; can fail: `C29_continue_counterexample` |
| `actor_base.cpp:149` the init request is there | holds: `C71_no_fault_partial`, `C57_safe_partial`; can fail: `C57_failed_counterexample` |
| `actor_base.cpp:173` state at `shutdown_continue` | holds for the calls made by the library: `C32_no_fault`, `C72_no_fault`; caller for user code that holds the actor |
| `actor_base.cpp:258` the cancelled timer exists | caller for timers of the user (C16, C52); for the timers of requests `C10_no_fault`; for those of the link server `C41_assertions_hold`, if no timer expires |
| `system_context_thread.cpp:122` the cancelled timer is in the list | can fail: `C16_io_cancel_counterexample`; that this is the only way: `C16_only_failure_partial` |
| `supervisor.cpp:141` discarded request is active | holds where a response arrives: `C10_no_fault`; can fail where a client gives a link request up: `C41_expired_link_counterexample` |
| `supervisor.cpp:148` no request left at the end | holds: `C10_no_fault`, `C14_shut_down_has_nothing_pending` (a callback that restarts its timer keeps the function from coming so far: `C14_restart_on_cancel_counterexample`) |
| `supervisor.cpp:167` there is a message to be uplifted | holds: `C10_no_fault` |
| `address_mapping.cpp:49` | commented out |
| `registry.cpp:59`, `62`, `72`, `74` name not asked for before, phase not over | caller (hypothesis `Cfg.Fine` of C49) |
| `registry.cpp:60`, `123` there is a registry | caller; when an actor inherits one: C60 |
| `registry.cpp:87`, `192`, `238` record of the name is there | hold in careful executions: `C49_safe_partial`; can fail when a shutdown comes between: `C49_registering_counterexample`, `C49_discovering_counterexample`, `C49_cancelled_counterexample` |
| `registry.cpp:109` the init request is there | holds in careful executions: `C49_safe_partial`; can fail: `C49_answered_counterexample` |
| `lifetime.cpp:77` subscription to be undone exists | caller; but it can fail for a subscription that does exist: `C32_late_unsubscription_counterexample` |
| `plugin_base.cpp:44` lifetime plugin is there | holds: `C32_no_fault`, `C72_no_fault` |
| `plugin_base.cpp:70` a subscription of a plugin has the tag of plugins | by construction (`owner` in `Verif.SupTeardown`, `Verif.Lifetime`): a plugin only keeps those that it tags |
| `plugin_base.cpp:91` the unsubscription is handled | holds: `C54_no_fault`, `C72_no_fault`; can fail: `C54_anonymous_counterexample` |
| `link_client.cpp:52` not linked with the server yet | caller |
| `link_client.cpp:63` record of the server exists | holds if no timer expires: `C41_assertions_hold`; can fail: `C43_stale_request_counterexample` |
| `link_server.cpp:96` record of the client exists | holds if no timer expires: `C41_assertions_hold`; can fail: `C43_expired_unlink_root_counterexample` |
| `child_manager.cpp:95` the record to be removed exists | holds: `C55_safe`, `C72_no_fault`, `C67_no_fault_partial`; can fail: `C67_late_request_counterexample` |
| `child_manager.cpp:206`, `213` the record of the child exists | hold: `C55_safe` |
| `child_manager.cpp:495` the timer is known | by construction (`Op.fired` of `Verif.Children` needs a pending timer); that callbacks come once is C16 and C52 |
| `child_manager.cpp:224` a spawned actor has a spawner address | caller: the factory has to use the address it is given |
| `child_manager.cpp:372` there is a shutdown reason | holds: `C33_has_reason`, unless a shutdown request without a reason is sent by user code |
| `init_shutdown.cpp:55` not shutting down already | always true, whatever the state is (`x != a` or `x != b`): a second shutdown request is let in |
| `resources.cpp:68`, `70` released resource is held | caller; otherwise a fault, C24 |
| `foreigners_support.cpp:76` the point belongs to this supervisor | holds: `C54_no_fault` |
| `subscription.cpp:54`, `58`, `81`, `99` entries of the tables exist | hold: `C01_dispatch_exact`, `C02_unsubscribe_precise`, `C54_no_fault` |
| `supervisor.h:438` handler not subscribed to this address before | caller; it also fails for two different methods of one class: `C63_starter_counterexample` |
| `supervisor.h:198`, `576`, `message.h:125`, `147` manager or address not null | caller |
| `supervisor_ev.cpp:33`, `40` kind of event | contract of libev, not modelled |

## Trusted base

* Lean 4.33.0's kernel. No axioms are declared, no `sorry`, `native_decide` or `bv_decide` is used;
  `decide` is used for concrete cases and counterexamples only.
* The reading of the C++ source: the model is tied to the code by the citations on every
  definition, and by `Verif/Conformance`, where the scenarios of the project's own tests (links,
  spawners, registry, requests, resources, children, timers of the thread backend, life cycle, routed
  messages) are replayed in the models and give what the tests check. These are tests of the models.
* The C++ memory model is not modelled: atomics are sequentially consistent steps; lock-free
  queues, mutexes and condition variables behave as specified by their libraries, and so do the
  event loops of boost.asio, libev, wx and FLTK.
* The axioms of Lean's library each theorem depends on, as `#print axioms` shows them:


**no axioms** (7 theorems):
`AddressMapping`: C44_two_builders_counterexample; `Children`: C55_timeout_counterexample; `ShutdownFlag`: C50_not_polled_before_start; `Texts`: C74_destination, C74_first_word, C74_kinds_differ, C74_own_keeps.

**`propext`** (61 theorems):
`Across`: C82_late, C82_prompt, C82_via_order_counterexample; `AsioLoop`: C56_asio_closures, C56_asio_each_once, C56_asio_no_lost_wakeup, C56_asio_order; `Children`: C34_late_counterexample, C35_closed_counterexample, C35_create_counterexample, C35_restart_counterexample, C35_timer_counterexample, C37_early_counterexample, C37_late_counterexample, C38_early_counterexample, C38_failed_counterexample, C38_self; `EvLoop`: C56_ev_each_once, C56_ev_late_counterexample, C56_ev_order; `FltkLoop`: C69_each_once, C69_timer_counterexample; `HandlerId`: C63_foreign_check_counterexample, C63_lambdas_counterexample, C63_methods_counterexample, C63_starter_counterexample; `Inspect`: C46_silent_when_idle, C46_stolen_pointer_counterexample, C46_turns; `Lifecycle`: C29_continue_counterexample, C30_late_joiner_counterexample, C31_init_twice_counterexample, C31_init_unanswered_counterexample, C31_shutdown_twice_counterexample; `Naming`: C77_error, C77_made_codes, C77_request; `Reasons`: C64_lost_failed_counterexample, C64_lost_self_counterexample, C64_unlink_counterexample; `Routing`: C08_captured_counterexample, C08_lost_hop_counterexample; `ShutdownFlag`: C50_poll_decides, C50_triggered; `SpawnBuilder`: C73_kept_chain_counterexample, C73_late_setting; `Spawner`: C27_wall_clock_counterexample, C28_no_flag_no_escalation, C28_normal_escalated_counterexample; `Subscription`: C01_shared_handler_order_counterexample; `Texts`: C74_errors_shown, C74_line, C74_link_level_counterexample, C74_nested, C74_own_shown, C74_parts_shown; `ThreadLoop`: C18_nested_never_taken_counterexample, C70_late_counterexample; `WxLoop`: C56_wx_closures, C56_wx_each_once, C56_wx_order.

**`propext`, `Quot.sound`** (170 theorems):
`Across`: C82_arrives, C82_asked, C82_seen, C82_sent_on, C82_taken; `AsioGuard`: C76_stopped, C76_unguarded_counterexample; `AsioLoop`: C56_asio_goes_on, C56_asio_taken; `Config`: C48_one_root; `Configure`: C71_early_release_counterexample, C71_first_request, C71_late_request, C71_second_request_counterexample; `Drain`: C78_dangling_counterexample, C78_lost_only, C78_mutex_counterexample, C78_nothing_left, C78_pure_virtual_counterexample; `EvLoop`: C56_ev_goes_on, C56_ev_no_lost_wakeup_partial, C56_ev_taken; `ExtendedError`: C45_root_and_message, C45_stringifier_outermost_only, C45_with_request, C45_wrapping_keeps_root; `Farewell`: C79_early_counterexample; `Fltk`: C19_callback_takes_everything_partial, C19_no_lost_wakeup_partial, C19_two_contexts_counterexample; `FltkLoop`: C69_all_dispatched, C69_none_left_partial, C69_none_left_without_timers, C69_order, C69_process_takes_all, C69_refines_protocol; `HandlerId`: C63_by_method_counterexample, C63_handled, C63_latest_counterexample, C63_others; `InitCancel`: C80_apart_counterexample, C80_assertion_counterexample; `Inspect`: C46_delivers, C46_equivalent, C46_printed; `Lifecycle`: C29_final_run, C29_shut_down_is_final; `Lifetime`: C32_anonymous_external_counterexample, C32_late_starter_subscription_counterexample, C32_late_subscription_counterexample, C32_late_unsubscription_counterexample; `Link`: C40_kept_request_counterexample, C40_link_cycle_counterexample, C41_confirmed_in_shutdown_counterexample, C41_expired_link_counterexample, C41_kept_unanswered_counterexample, C41_served_at_once, C42_asks, C42_begins, C42_late_link_counterexample, C42_refused_link_fails, C43_expired_unlink_counterexample, C43_expired_unlink_root_counterexample, C43_shutdown_answered_twice_counterexample, C43_stale_request_counterexample, C43_unlink_forgotten_counterexample; `Locality`: C47_creatable, C47_leader_is_group, C47_local_dispatch, C47_single_loop, C47_split_strand_counterexample; `MsgCount`: C66_moves; `Naming`: C77_identity, C77_never_empty, C77_odd_name_counterexample, C77_same_name_counterexample, C77_tell_actors, C77_words; `Net`: C07_stale_counterexample, C54_anonymous_counterexample; `Redirect`: C62_arrives_partial, C62_called, C62_dropped_route_counterexample, C62_hop, C62_order_partial, C62_two_handlers_counterexample; `Reentry`: C61_link_rehash_faults, C61_skipped_counterexample, C61_subscribe_counterexample, C61_timer_rehash_faults, C61_unsubscribe_counterexample; `RegPlugin`: C49_answered_counterexample, C49_callback_counterexample, C49_cancelled_counterexample, C49_destroyed_counterexample, C49_discovering_counterexample, C49_down_counterexample, C49_late_counterexample, C49_linked_counterexample, C49_poked_counterexample, C49_registering_counterexample, C49_revived_counterexample, C49_shared_counterexample, C49_stays_counterexample, C49_twice_counterexample; `RequestIds`: C13_counts_up, C13_drawn, C13_leader_requests_unique, C13_loop_ends; `Resources`: C24_overflow_counterexample; `ShutTimeout`: C67_deaf_child_counterexample, C67_default_fatal_counterexample, C67_late_request_counterexample, C67_two_instances_counterexample; `ShutdownFlag`: C50_goes_on, C50_operational_polls, C50_polled; `Spawner`: C28_never_not_escalated_counterexample; `Starter`: C57_again_counterexample, C57_behind_counterexample, C57_failed_counterexample, C57_late_counterexample, C57_stuck; `Strands`: C65_called_in_strand, C65_calls, C65_code_and_leader, C65_each_called_partial, C65_each_once, C65_exclusive, C65_inbound_taken, C65_late_message_counterexample, C65_late_send_counterexample, C65_leader_exclusive, C65_nothing_left_partial, C65_pending_callback_counterexample, C65_pending_operation_counterexample, C65_processed; `Subscription`: C03_tag_nested_always_faults; `SupRefs`: C68_asio_cancel_counterexample, C68_ev_on_async_counterexample, C68_ev_watcher_counterexample, C68_fltk_callback_counterexample, C68_stopped_watcher, C68_wx_last_timer_counterexample; `SupTeardown`: C72_foreigners_first_counterexample, C72_late_first_request_counterexample, C72_late_request_counterexample; `TextMaker`: C81_first_root, C81_one_root, C81_race_counterexample, C81_root_race_counterexample; `Texts`: C74_errors_differ, C74_levels, C74_lines_differ; `ThreadLoop`: C17_message_is_taken, C17_no_lost_wakeup, C17_no_oversleep, C18_root_messages_in_order_partial, C70_goes_on, C70_not_early, C70_returns; `ThreadTimers`: C15_io_start_partial, C15_stale_time_counterexample, C16_io_cancel_counterexample, C16_plain_handlers; `Tree`: C53_late_counterexample, C53_left_counterexample, C53_stuck_counterexample; `WxLoop`: C56_wx_goes_on, C56_wx_taken.

**`propext`, `Classical.choice`, `Quot.sound`** (335 theorems):
`Across`: C82_accounted, C82_answered, C82_at_home, C82_numbers, C82_once, C82_order_partial, C82_right_one; `AddressMapping`: C44_cleanup_exact, C44_private_addresses, C44_request, C44_stable_address, C44_unsubscribed; `AsioGuard`: C76_guarded, C76_no_message_forgotten, C76_no_timer_forgotten, C76_nothing_left, C76_returns, C76_terminates, C76_timers; `Children`: C34_confirms, C34_once, C34_root, C34_state, C34_waits, C35_asks, C35_last, C35_told, C35_waits, C36_cause, C36_needed, C36_once, C36_trigger, C37_all_ready, C37_all_started, C37_arrives, C37_barrier, C37_cause, C37_immediate, C37_once, C37_root_started, C37_started, C38_child, C38_failed, C38_removed, C38_root, C38_stays, C55_safe, C58_limit, C58_not_forgotten, C58_single, C59_record_freed, C59_record_kept; `Config`: C48_wellformed_creates; `Configure`: C71_after_others, C71_library_actor, C71_library_supervisor, C71_no_fault_partial, C71_nobody_forgotten, C71_once, C71_polled, C71_preinit_ignored_counterexample, C71_starter_last, C71_supervisor_starter_last, C71_with_casted; `Drain`: C78_context_empties_partial, C78_destroyed_once, C78_empties_partial, C78_last, C78_no_fault_partial, C78_not_leaked, C78_one_hop, C78_sent_on, C78_unrouted; `Farewell`: C79_agreed, C79_before_shutdown, C79_books, C79_called, C79_children_called_partial, C79_emptied, C79_for_ever, C79_left_over_counterexample, C79_no_fault, C79_not_awaited, C79_nothing_left_partial, C79_passed, C79_unanswered_counterexample, C79_while_waiting; `Fltk`: C19_counted, C19_goes_on; `FltkLoop`: C69_counted, C69_goes_on; `HandlerId`: C63_exact_partial, C63_exact_rest_partial; `InitCancel`: C80_accounted, C80_apart_early, C80_ended, C80_no_fault, C80_only_this, C80_others_stay, C80_request_answered, C80_self_noop, C80_taken_back, C80_together; `Intercept`: C75_equal, C75_flag_off, C75_foreign_counterexample, C75_foreign_untagged, C75_own_address; `Lifecycle`: C29_forward_only, C29_operational_after_initialized, C30_init_progress, C30_not_again, C30_order, C30_shutdown_progress, C30_unanimous_init, C30_unanimous_shutdown, C31_init_answered, C31_shutdown_answered, C31_shutdown_exactly_once, C31_truthful, C33_first_reason, C33_has_reason, C33_kept, C39_autoshutdown, C39_escalation; `Lifetime`: C32_completes, C32_no_fault, C32_no_subscription_left, C32_not_undone_before, C32_one_reply, C32_request_completes, C32_shut_down_means_none, C32_undone_once, C59_deactivating, C59_drained, C59_kept, C59_released; `Link`: C40_begins, C40_closed_before_shut_down, C40_server_outlives_clients, C40_shutdown_completes, C41_answered_at_most_once, C41_answered_when_quiet, C41_assertions_hold, C41_kept_until_started, C41_refusals_are_real, C41_rules, C42_init_answered_once, C42_initialized_after_links, C42_waits_for_links_only, C43_asked_once, C43_awaited, C43_both_sides_agree, C43_client_gone, C43_every_client_asked, C43_granted_at_once, C43_nothing_left, C43_records; `Locality`: C47_created; `LoopTimers`: C52_cancel, C52_cancel_quiet, C52_counted, C52_exactly_once, C52_expires, C52_expiry, C52_no_fault, C52_not_lost, C52_references, C52_start, C52_tables; `MsgCount`: C66_goes_on, C66_kept, C66_no_leak, C66_once, C66_released, C66_safe; `Naming`: C77_codes, C77_told, C77_who; `Net`: C04_dispatch_order, C04_progress, C05_dispatch_complete, C05_in_transit, C05_order_and_once, C06_own_locality, C07_at_most_once, C07_executed_iff_live, C07_only_subscribed_partial, C54_agreement, C54_effect, C54_local, C54_no_fault, C54_subscribed, C54_unsubscribing; `Reasons`: C64_head, C64_root, C64_root_partial, C64_single_partial, C64_started_partial, C64_trail; `Redirect`: C62_next_route, C62_recorded, C62_single_arrives; `Reentry`: C61_delivery_partial, C61_link_partial, C61_moved_faults, C61_removed_faults, C61_single, C61_timer_partial, C61_timer_self_faults; `RegPlugin`: C49_all_reported, C49_answered_partial, C49_cancel, C49_complete_partial, C49_dereg, C49_fails, C49_last_answer_partial, C49_once, C49_progress_partial, C49_safe_partial, C49_stored, C49_success_final, C49_variable; `RegTree`: C60_early_counterexample, C60_nearest_partial, C60_recorded, C60_stable; `Registry`: C20_discovery_answer, C20_registry_is_a_map, C21_name_held_once, C21_released_name_is_free, C22_withdraw_exact, C23_cancel, C23_no_wait_for_registered, C23_promise_answered_once, C23_registration_answers_in_order; `RequestIds`: C13_nested_collision_counterexample, C13_timer_collision_counterexample; `Requests`: C09_at_most_one_response, C10_every_request_is_accounted, C10_given_up, C10_no_fault, C10_queue_drains, C10_timeout_resolves, C11_stale_reply_no_effect, C12_response_is_next, C12_responses_in_order, C13_identities_unique_partial, C14_called_once, C14_restart_on_cancel_counterexample, C14_shut_down_has_nothing_pending, C14_told; `Resources`: C24_held_blocks_init_partial, C24_held_blocks_shutdown_partial, C24_release_resumes_partial, C24_resources_partial; `Routing`: C08_effect, C08_hop_has_single_owner, C08_hop_once_after_all, C08_hop_taken_local, C08_hop_taken_partial, C08_nothing_else, C08_reference_dropped, C08_route_spent; `ShutTimeout`: C67_default_confirmed, C67_no_fault_partial, C67_reported_once, C67_shutdown_ends_partial; `ShutdownFlag`: C50_flag_triggers_once; `SpawnBuilder`: C73_at_most_once, C73_exactly_once, C73_nobody_else, C73_usable; `Spawner`: C25_max_attempts, C26_restart_policy, C26_scheduled_is_created, C26_throwing_factory, C27_no_lost_restart, C27_restart_period, C28_escalation_exact_partial; `Starter`: C57_asked_partial, C57_awaited, C57_complete_partial, C57_order, C57_progress_partial, C57_safe_partial; `Strands`: C65_exist_partial; `Subscription`: C01_dispatch_exact, C01_dispatch_multiset, C02_empty_iff_no_live, C02_unsubscribe_precise, C03_tag_in_place_partial; `SupRefs`: C68_called_timer, C68_counter, C68_no_leak, C68_no_use_after_free_partial, C68_pending_keeps, C68_timer_called, C68_timers_safe; `SupTeardown`: C72_children_first, C72_completes, C72_completes_alone, C72_drains, C72_kept_until_confirmed, C72_no_fault, C72_nothing_left, C72_removed_once, C72_reply_once; `TextMaker`: C81_gets, C81_library, C81_no_fault, C81_once, C81_same; `Texts`: C74_value; `ThreadTimers`: C15_deadline_order_partial, C15_never_early_partial, C16_callback_exactly_once_partial, C16_cancelled_iff_requested_partial, C16_io_fires_all_partial, C16_io_restart_diverges_counterexample, C16_only_failure_partial, C16_update_fires_all_partial; `Tree`: C53_below, C53_bounded, C53_calm, C53_deliverable, C53_ends_partial, C53_failed, C53_next, C53_outcome, C53_rest, C53_still, C53_up; `TypeRegistry`: C51_same_identity_iff_same_class; `WxLoop`: C56_wx_no_lost_wakeup.
