{"id": "C01", "title": "Dispatch reaches exactly the live subscriptions", "statement": "After any history of subscriptions and completed unsubscriptions, a message of type T sent to address A is handed to exactly the handlers whose subscription to (A, T) is currently live: once per live subscription, in the order in which they were subscribed (handlers of other localities form their own list, handled first), and to nobody else.", "quantifier": "for every sequence of subscribe / forget operations over any set of addresses, message types and handlers, and for every (address, type) pair", "why_tests_cant": "The claim ranges over unbounded histories and interleaved keys; tests exercise a handful of subscriptions on one or two addresses.", "anchors": ["src/rotor/subscription.cpp: subscription_t::materialize, get_recipients, forget", "src/rotor/plugin/delivery.cpp: delivery_plugin_base_t, local_delivery_plugin_t::delivery", "include/rotor/subscription.h"]}
{"id": "C02", "title": "Unsubscription is precise and leaves no residue", "statement": "Undoing one subscription removes exactly that subscription and disturbs neither the presence nor the order of any other; once every subscription to a locality's addresses has been undone, the supervisor's subscription table is empty (which is what the shutdown of a supervisor asserts). Undoing a live subscription never fails.", "quantifier": "for every subscription history and every order in which subscriptions are undone", "why_tests_cant": "All permutations of subscribing and unsubscribing over unboundedly many keys cannot be enumerated.", "anchors": ["src/rotor/subscription.cpp: subscription_t::forget", "src/rotor/supervisor.cpp: supervisor_t::shutdown_finish, commit_unsubscription"]}
{"id": "C03", "title": "Tagging a handler as blocking keeps its subscription", "statement": "Marking a subscribed handler as blocking (tag_io) replaces the handler in place: the subscription keeps its position among the recipients, no other subscription changes, and it can later be unsubscribed like any other.", "quantifier": "for every subscription table and every live subscription in it, including subscriptions of actors owned by nested supervisors", "why_tests_cant": "Existing tests tag a single handler of a root supervisor; the in-place exchange has to be right for each position in any list and for every supervisor topology.", "anchors": ["src/rotor/subscription.cpp: subscription_t::update", "src/rotor/subscription_point.cpp: subscription_info_t::tag", "src/rotor/handler.cpp: handler_base_t::upgrade"]}
{"id": "C04", "title": "Messages are dispatched in send order, once each", "statement": "Within one locality the messages are dispatched in exactly the order in which they were sent, each one once, none lost and none invented, whatever the handlers do while running (send further messages, to anyone).", "quantifier": "for every initial queue, every behaviour of the handlers and every number of processed messages", "why_tests_cant": "Handler behaviour is arbitrary code; tests fix a few handlers.", "anchors": ["include/rotor/supervisor.h: supervisor_t::put, local process() of delivery_plugin_t", "include/rotor/plugin/delivery.h"]}
{"id": "C05", "title": "Per-sender FIFO between any two actors, across event loops", "statement": "If an actor sends m1 and later m2 to the same destination, the destination's handlers see m1 before m2 and each of them exactly once, even when sender and destination live in different localities (threads) and any number of other actors send concurrently.", "quantifier": "for every number of localities, every interleaving of their event loops, every handler behaviour", "why_tests_cant": "Thread schedules are unbounded; a test observes a few of them.", "anchors": ["include/rotor/supervisor.h: delivery_plugin_t::process", "src/rotor/thread/supervisor_thread.cpp: enqueue", "src/rotor/thread/system_context_thread.cpp: run", "src/rotor/ev/supervisor_ev.cpp: move_inbound_queue", "src/rotor/asio/supervisor_asio.cpp: do_process"]}
{"id": "C06", "title": "Handlers run only inside their own locality", "statement": "A message handler of an actor is invoked only by the event loop (locality) that owns the actor, never by the loop of the sender or of the address owner, so that actor code needs no locking.", "quantifier": "for every topology of localities, every set of cross-locality subscriptions and every interleaving", "why_tests_cant": "A violation is a data race, visible only under particular schedules.", "anchors": ["src/rotor/plugin/delivery.cpp: local_delivery_plugin_t::delivery", "src/rotor/plugin/foreigners_support.cpp: on_call", "src/rotor/subscription.cpp: materialize"]}
{"id": "C07", "title": "A foreign call is executed only for a live subscription of a live actor", "statement": "When an address lives in one locality and a subscriber in another, the handler is executed at most once per dispatched message, and only if at the time of execution the subscriber has not been shut down and is still subscribed; in every other case the message is dropped without effect.", "quantifier": "for every order of dispatch, unsubscription and shutdown", "why_tests_cant": "Requires every relative timing of a dispatch with an unsubscription/shutdown in another thread.", "anchors": ["src/rotor/plugin/foreigners_support.cpp: foreigners_support_plugin_t::on_call", "include/rotor/messages.hpp: handler_call_t"]}
{"id": "C08", "title": "A routed message takes its second hop exactly once, after its first", "statement": "A message created with make_routed_message is sent on to its route address only after every recipient of the first address has finished with it, at most once, and it does take the hop once all recipients (possibly none, possibly in other threads) are done.", "quantifier": "for every number of recipients, in any localities, and every interleaving of their reference releases", "why_tests_cant": "The decision depends on a racy reference-count observation; the failing interleaving is a few instructions wide.", "anchors": ["include/rotor/message.h: make_routed_message", "include/rotor/supervisor.h: delivery_plugin_t::process (use_count() == 1)", "src/rotor/messages.cpp: handler_call_t::~handler_call_t"]}
{"id": "C09", "title": "At most one response per request", "statement": "However many replies arrive and whatever the timers do, the requester's response handlers are handed at most one response for each request it made.", "quantifier": "for every request history, every reply behaviour of the peers (none, one, many, forged ids) and every timer schedule (runs in which fewer than 2^64 request and timer identities are drawn)", "why_tests_cant": "Races of reply against timeout against repeated reply have unboundedly many orders.", "anchors": ["include/rotor/supervisor.h: request_builder_t::install_handler, send", "src/rotor/supervisor.cpp: on_request_trigger, discard_request"]}
{"id": "C10", "title": "Every request is resolved", "statement": "A request that has been sent and not yet answered always has an armed timer, so it ends either with its response or, if the timer fires first, with one timeout response whose error is request_timeout, unless it is taken back (with the end of the requester, C14, or when an initialization is given up, C80); requests, armed request timers and the requester's set of active requests always agree.", "quantifier": "for every reachable state of the messaging runtime (runs in which fewer than 2^64 request and timer identities are drawn)", "why_tests_cant": "It is an invariant over unbounded histories of concurrent requests.", "anchors": ["include/rotor/supervisor.h: request_builder_t::send", "src/rotor/supervisor.cpp: on_request_trigger, discard_request", "src/rotor/actor_base.cpp: shutdown_finish"]}
{"id": "C11", "title": "Late and duplicate replies are discarded without effect", "statement": "A reply to a request that has already been answered, has timed out or was never made changes nothing: no handler is called, no other request is affected.", "quantifier": "for every reachable state and every reply (runs in which fewer than 2^64 request and timer identities are drawn)", "why_tests_cant": "Needs every point in time at which the stale reply can arrive.", "anchors": ["include/rotor/supervisor.h: request_builder_t::install_handler"]}
{"id": "C12", "title": "Responses keep the send order of the replier", "statement": "A response is seen by the requester in the position in which it was sent: before any message the replier sent to the requester afterwards and after any message it sent before.", "quantifier": "for every queue content at the moment the response is unwrapped", "why_tests_cant": "The uplift touches the shared queue while it is being drained; every queue content matters.", "anchors": ["include/rotor/supervisor.h: request_builder_t::install_handler", "src/rotor/supervisor.cpp: uplift_last_message"]}
{"id": "C13", "title": "Request identifiers are never shared", "statement": "No two requests or timers that are pending at the same time in one locality share an identifier.", "quantifier": "for every number of requests and timers ever issued, including wrap-around of the counter", "why_tests_cant": "Wrap-around takes 2^64 requests.", "anchors": ["include/rotor/supervisor.h: supervisor_t::next_request_id", "src/rotor/actor_base.cpp: start_timer"]}
{"id": "C14", "title": "A shut-down actor has no pending timers or requests", "statement": "When an actor reports SHUT_DOWN all its timers have been cancelled (each callback called once with cancelled = true), all its outstanding requests have been cancelled and none of their responses will be delivered to it any more.", "quantifier": "for every set of timers and requests pending at shutdown", "why_tests_cant": "The set is arbitrary and the cancellation callbacks run while it is being emptied.", "anchors": ["src/rotor/actor_base.cpp: shutdown_finish, on_timer_trigger, cancel_timer", "src/rotor/supervisor.cpp: on_request_trigger"]}
{"id": "C15", "title": "Timers never fire early and fire in deadline order", "statement": "In the thread backend a timer fires only when its deadline has passed, timers fire in order of their deadlines, and timers with equal deadlines fire in the order they were started.", "quantifier": "for every sequence of start/cancel operations and clock readings", "why_tests_cant": "Ordering over all interleavings of insertions and cancellations.", "anchors": ["src/rotor/thread/system_context_thread.cpp: start_timer, cancel_timer, update_time"]}
{"id": "C16", "title": "Each timer calls back exactly once", "statement": "For every timer started, the callback is invoked exactly once: either with cancelled=false when it fires or with cancelled=true when it is cancelled, never both, never twice; also while a blocking (io) handler is running.", "quantifier": "for every sequence of start / cancel / clock advance operations, including those issued from timer callbacks", "why_tests_cant": "Re-entrant callbacks and clock positions multiply beyond enumeration; the failing cases need a timer to expire while a blocking handler runs.", "anchors": ["src/rotor/thread/system_context_thread.cpp: update_time, start_timer, cancel_timer", "src/rotor/thread/supervisor_thread.cpp: intercept", "src/rotor/actor_base.cpp: on_timer_trigger, cancel_timer"]}
{"id": "C17", "title": "The thread event loop neither oversleeps nor misses a message", "statement": "The thread loop sleeps no longer than to the earliest timer deadline, and a message enqueued from another thread at any moment is noticed: the loop cannot go to sleep forever with an undelivered message in its inbound queue.", "quantifier": "for every interleaving of producers with the loop's poll / lock / wait sequence", "why_tests_cant": "Lost wake-ups happen in windows of a few instructions.", "anchors": ["src/rotor/thread/system_context_thread.cpp: run, check", "src/rotor/thread/supervisor_thread.cpp: enqueue"]}
{"id": "C18", "title": "Messages from other threads reach every supervisor of the loop", "statement": "A message enqueued from another thread to any address of a locality, whether it belongs to the root or to a nested supervisor, is eventually taken by the loop of this locality.", "quantifier": "for every supervisor tree in a locality", "why_tests_cant": "The trees are arbitrary; tests cross threads only between root supervisors.", "anchors": ["src/rotor/thread/supervisor_thread.cpp: enqueue", "src/rotor/thread/system_context_thread.cpp: run, check", "src/rotor/ev/supervisor_ev.cpp: enqueue", "src/rotor/asio/supervisor_asio.cpp: enqueue"]}
{"id": "C19", "title": "The FLTK backend never loses a wake-up", "statement": "Every message enqueued from another thread to an FLTK supervisor is eventually processed: whenever an inbound message is waiting and no drain is running, a wake-up of the event loop is pending.", "quantifier": "for every number of producers and contexts and every interleaving of push, counter increments and drains", "why_tests_cant": "The counter protocol is lock free; its failing schedules are rare.", "anchors": ["src/rotor/fltk/system_context_fltk.cpp: _callback, enqueue, queue_counter"]}
{"id": "C20", "title": "The registry behaves as a map from names to addresses", "statement": "Registrations, deregistrations and discoveries behave like operations on one finite map name -> address: discovery returns the address of the last successful registration that has not been undone, and unknown_service otherwise.", "quantifier": "for every sequence of registry messages", "why_tests_cant": "The registry keeps a forward and a reverse index that have to agree after every history.", "anchors": ["src/rotor/registry.cpp: registry_t::on_reg, on_dereg, on_dereg_service, on_discovery"]}
{"id": "C21", "title": "A name can be held by one address only", "statement": "Registering a name that is taken is answered with already_registered and leaves the registry unchanged; a name can be registered again as soon as it has been released.", "quantifier": "for every registry state and request", "why_tests_cant": "Requires all histories leading to the clash.", "anchors": ["src/rotor/registry.cpp: registry_t::on_reg"]}
{"id": "C22", "title": "Withdrawing an address withdraws exactly its names", "statement": "A deregistration of an address removes all the names registered for it and none of the others; a deregistration of a name removes that name only.", "quantifier": "for every registry state reachable by any message sequence", "why_tests_cant": "Depends on the consistency of the reverse index over unbounded histories.", "anchors": ["src/rotor/registry.cpp: registry_t::on_dereg, on_dereg_service"]}
{"id": "C23", "title": "Delayed discovery is answered exactly once", "statement": "A discovery promise for a name that is not yet registered is answered exactly once: when the name gets registered, or with a cancellation error when it is cancelled; promises waiting for a name are answered in the order they were made, promises for other names are untouched.", "quantifier": "for every sequence of promises, registrations and cancellations", "why_tests_cant": "Interleavings of several pending promises with registrations are unbounded.", "anchors": ["src/rotor/registry.cpp: registry_t::on_promise, on_reg, on_cancel"]}
{"id": "C24", "title": "Initialization and shutdown wait for acquired resources", "statement": "While an actor holds at least one acquired resource its initialization (shutdown) does not complete, and releasing the last one resumes it; acquire/release behave as independent counters per resource id, and has() reports the number of acquisitions not yet released.", "quantifier": "for every sequence of acquire/release calls over any ids", "why_tests_cant": "Counters are unbounded and ids arbitrary.", "anchors": ["src/rotor/plugin/resources.cpp: resources_plugin_t::acquire, release, has, has_any, handle_init, handle_shutdown"]}
{"id": "C25", "title": "A spawner never exceeds its attempt limit", "statement": "With max_attempts(n), n > 0, a spawner invokes its factory at most n times, whatever the failures and however often instances shut down.", "quantifier": "for every policy, limit and history of instance outcomes and clock readings", "why_tests_cant": "The histories are unbounded; tests use n = 3 with one outcome.", "anchors": ["src/rotor/detail/child_info.cpp: spawn_attempt, next_spawn", "src/rotor/plugin/child_manager.cpp: on_spawn, remove_child"]}
{"id": "C26", "title": "Restart policies mean what they say", "statement": "After an instance is down a new one is created exactly when the restart policy says so: always - any reason; normal_only - only after a normal shutdown; fail_only - only after a failure; ask_actor - as the instance answers; never - not at all; and never when the attempts are exhausted or the spawner has been deactivated.", "quantifier": "for every policy, attempt count, shutdown reason and escalation setting", "why_tests_cant": "The decision table is the product of several dimensions and histories.", "anchors": ["src/rotor/detail/child_info.cpp: child_info_t::next_spawn", "include/rotor/policy.h", "include/rotor/spawner.h"]}
{"id": "C27", "title": "Instances are not created faster than the restart period", "statement": "Two consecutive instantiations by the same spawner are at least restart_period apart, and every permitted re-instantiation happens.", "quantifier": "for every history of outcomes and clock readings", "why_tests_cant": "Depends on arbitrary clock positions.", "anchors": ["src/rotor/detail/child_info.cpp: next_spawn", "src/rotor/plugin/child_manager.cpp: remove_child, on_spawn, on_spawn_timer"]}
{"id": "C28", "title": "Spawner failures escalate exactly when asked to", "statement": "With escalate_failure set, a failing instance that will not be restarted (policy or exhausted attempts) shuts the supervisor down with failure_escalation; without it the supervisor keeps running.", "quantifier": "for every spawner configuration and instance history", "why_tests_cant": "Product of configurations and histories.", "anchors": ["src/rotor/detail/child_info.cpp: next_spawn", "src/rotor/plugin/child_manager.cpp: remove_child"]}
{"id": "C29", "title": "The actor state only moves forward", "statement": "The state of an actor only moves forward through NEW, INITIALIZING, INITIALIZED, OPERATIONAL, SHUTTING_DOWN, SHUT_DOWN (skipping is allowed, going back is not), and nothing happens to it after SHUT_DOWN.", "quantifier": "for every sequence of lifecycle messages, in any order, and every behaviour of the plugins", "why_tests_cant": "Messages can arrive in any order: shutdown during init, start after shutdown, repeated triggers.", "anchors": ["src/rotor/actor_base.cpp", "src/rotor/plugin/init_shutdown.cpp", "src/rotor/plugin/starter.cpp", "include/rotor/state.h"]}
{"id": "C30", "title": "Plugins vote in order and everyone has to agree", "statement": "Initialization completes only when every plugin that takes part has agreed, asking them in direct order and never asking a later one before an earlier one has agreed; shutdown likewise in reverse order; a plugin that has agreed is not asked again unless it joins again; if everybody agrees the procedure completes at once.", "quantifier": "for every list of plugins and every behaviour of their answers over time", "why_tests_cant": "Plugin answers depend on arbitrary asynchronous events.", "anchors": ["src/rotor/actor_base.cpp: init_continue, shutdown_continue, poll"]}
{"id": "C31", "title": "Lifecycle requests are answered exactly once", "statement": "An actor answers an initialization request at most once, and with success if and only if it becomes INITIALIZED; it answers its shutdown request exactly once, when it becomes SHUT_DOWN and not before.", "quantifier": "for every interleaving of the init and shutdown procedures", "why_tests_cant": "Shutdown may interrupt init at every point.", "anchors": ["src/rotor/actor_base.cpp: init_finish, shutdown_start, shutdown_finish", "src/rotor/plugin/init_shutdown.cpp", "src/rotor/plugin/link_client.cpp: on_link_response", "src/rotor/plugin/registry.cpp: continue_init"]}
{"id": "C32", "title": "Shutdown completes only when all subscriptions are gone", "statement": "An actor reports SHUT_DOWN only after every subscription made by it and by its plugins has been undone and confirmed.", "quantifier": "for every set of subscriptions and every order of confirmations", "why_tests_cant": "Confirmations arrive asynchronously in any order, from several localities.", "anchors": ["src/rotor/plugin/lifetime.cpp", "src/rotor/plugin/plugin_base.cpp: deactivate, forget_subscription", "src/rotor/actor_base.cpp: deactivate_plugins, commit_plugin_deactivation, on_unsubscription"]}
{"id": "C33", "title": "The first shutdown reason wins", "statement": "The shutdown reason of an actor is the one of the first shutdown trigger or request that reached it; later ones do not replace it, and an actor in SHUTTING_DOWN has a reason.", "quantifier": "for every sequence of shutdown triggers and requests with any reasons", "why_tests_cant": "Several concurrent causes may arrive in any order.", "anchors": ["src/rotor/actor_base.cpp: do_shutdown, assign_shutdown_reason, shutdown_start", "src/rotor/plugin/init_shutdown.cpp: on_shutdown"]}
{"id": "C34", "title": "A supervisor is initialized only after its children", "statement": "A supervisor confirms its own initialization only when none of the children created before is still initializing.", "quantifier": "for every number of children and every order of their init responses", "why_tests_cant": "Order of responses and the number of children are unbounded.", "anchors": ["src/rotor/plugin/child_manager.cpp: handle_init, has_initializing, on_init, init_continue"]}
{"id": "C35", "title": "A supervisor is shut down only after its children", "statement": "A supervisor that is shutting down asks every living child to shut down and completes its own shutdown only when none of them is left, including children spawned or restarted meanwhile.", "quantifier": "for every number of children and every interleaving of child shutdowns, restarts and init failures", "why_tests_cant": "The order in which children terminate is arbitrary.", "anchors": ["src/rotor/plugin/child_manager.cpp: handle_shutdown, request_shutdown, remove_child, active_actors, on_spawn"]}
{"id": "C36", "title": "One shutdown request per child instance", "statement": "A supervisor sends at most one shutdown request to each child instance, even if several causes (own shutdown, child trigger, failed init) coincide.", "quantifier": "for every sequence of causes", "why_tests_cant": "Coinciding causes can be interleaved at will.", "anchors": ["src/rotor/plugin/child_manager.cpp: request_shutdown, on_shutdown_trigger, on_init", "include/rotor/detail/child_info.h: shutdown_state_t"]}
{"id": "C37", "title": "Synchronized start is a barrier", "statement": "With synchronize_start no child becomes operational before all the children of the supervisor have been initialized and the supervisor itself has been started; without it a child is started as soon as it is initialized; each initialized child is started exactly once.", "quantifier": "for every number of children and every order of init responses and of the start message", "why_tests_cant": "Orders and numbers are unbounded.", "anchors": ["src/rotor/plugin/child_manager.cpp: on_init, handle_start, init_continue", "include/rotor/supervisor_config.h: synchronize_start"]}
{"id": "C38", "title": "A failing child init is handled by policy", "statement": "If a child fails to initialize while its supervisor is initializing, then with policy shutdown_self the supervisor is shut down, with shutdown_failed only the child is shut down and the supervisor's initialization goes on without it.", "quantifier": "for every number of children, every set of failures and every order", "why_tests_cant": "Failures of several children can interleave with the supervisor's own init.", "anchors": ["src/rotor/plugin/child_manager.cpp: on_init, remove_child, cancel_init", "include/rotor/policy.h: supervisor_policy_t"]}
{"id": "C39", "title": "Escalation and auto-shutdown flags", "statement": "A non-spawned actor shuts its supervisor down when it goes down if and only if it was configured with autoshutdown_supervisor, or with escalate_failure and it goes down because of a failure.", "quantifier": "for every flag combination, shutdown reason and lifecycle stage", "why_tests_cant": "Combination of flags, reasons and stages.", "anchors": ["src/rotor/actor_base.cpp: shutdown_start"]}
{"id": "C40", "title": "A linked server outlives its clients", "statement": "An actor with linked clients does not complete its shutdown until every client has been unlinked.", "quantifier": "for every number of clients and every interleaving of link, unlink and shutdown messages", "why_tests_cant": "Protocol interleavings over any number of clients.", "anchors": ["src/rotor/plugin/link_server.cpp", "src/rotor/plugin/link_client.cpp", "docs/Design.md (links)"]}
{"id": "C41", "title": "Every link request is answered exactly once", "statement": "A link request is answered exactly once: at once if the server can serve it, deferred until it becomes operational if that was asked for, or with an error when the server is shutting down.", "quantifier": "for every server state, request flag and order of start / shutdown", "why_tests_cant": "Start and shutdown can overtake pending requests.", "anchors": ["src/rotor/plugin/link_server.cpp: on_link_request, handle_start, notify_shutdown"]}
{"id": "C42", "title": "A client is initialized only after all its links are established", "statement": "An actor that asked to be linked with servers does not complete initialization before each of them has confirmed; a refused link makes the initialization fail.", "quantifier": "for every set of servers and every order of answers", "why_tests_cant": "Answers come in any order with any mix of outcomes.", "anchors": ["src/rotor/plugin/link_client.cpp: link, on_link_response, handle_init"]}
{"id": "C43", "title": "Unlinking terminates the link on both sides once", "statement": "When a server shuts down each linked client receives exactly one unlink request; after both handshakes no link record remains on either side, also if client and server shut down at the same time.", "quantifier": "for every interleaving of the two shutdown procedures and of the message deliveries", "why_tests_cant": "The crossing of unlink_notify with unlink_request needs particular schedules.", "anchors": ["src/rotor/plugin/link_server.cpp: notify_shutdown, on_unlink_notify, on_unlink_response", "src/rotor/plugin/link_client.cpp: forget_link, try_forget_links, handle_shutdown"]}
{"id": "C44", "title": "Response addresses are private per requester and response type", "statement": "Each actor owns at most one private response address per response type, it never changes during the actor's life, different actors never share one, and after its subscriptions have been removed nothing remains.", "quantifier": "for every history of requests by any number of actors", "why_tests_cant": "Unbounded histories.", "anchors": ["src/rotor/address_mapping.cpp", "include/rotor/supervisor.h: request_builder_t"]}
{"id": "C45", "title": "Error chains report the root cause", "statement": "The root of a nested error is its innermost error, wrapping never changes it, and the rendered message contains the contexts and codes of all levels from the outermost to the root in order.", "quantifier": "for every chain length and content", "why_tests_cant": "Chains are unbounded.", "anchors": ["src/rotor/extended_error.cpp: extended_error_t::message, root, make_error"]}
{"id": "C46", "title": "Inspected delivery is equivalent to plain delivery", "statement": "Turning on message inspection does not alter which messages are delivered to whom and in what order.", "quantifier": "for every queue, subscription table and handler behaviour", "why_tests_cant": "Equivalence of two code paths on all inputs.", "anchors": ["include/rotor/supervisor.h: delivery_plugin_t<inspected_local_delivery_t>::process", "src/rotor/plugin/delivery.cpp"]}
{"id": "C47", "title": "Localities are the maximal connected groups of one event loop", "statement": "Two supervisors share a message queue exactly when they are connected by a chain of parent links inside one locality; the leader of a locality is its topmost supervisor; a message is queued locally only if its destination is in the sender's locality.", "quantifier": "for every supervisor tree and locality assignment", "why_tests_cant": "All trees.", "anchors": ["src/rotor/plugin/locality.cpp: activate", "include/rotor/address.hpp: same_locality", "include/rotor/supervisor.h: put, process"]}
{"id": "C48", "title": "Only well-formed configurations create actors", "statement": "create_actor(...).finish() produces an actor if and only if all required settings were provided (timeouts, and for supervisors no contradictory registry settings); otherwise the error is actor_misconfigured and nothing is created; a context accepts only one root supervisor.", "quantifier": "for every sequence of builder calls", "why_tests_cant": "All orders and repetitions of builder calls.", "anchors": ["include/rotor/actor_config.h", "include/rotor/supervisor_config.h: validate", "include/rotor/supervisor.h: finish, create_supervisor"]}
{"id": "C49", "title": "Name discovery in an actor's init", "statement": "An actor that asked to register or discover names does not complete initialization before every registration and discovery (and requested link) has succeeded; a failed one makes init fail; the discovered address is stored before the callback runs; an address discovered under several names is linked once and all its names are reported.", "quantifier": "for every set of names and every order of responses", "why_tests_cant": "Orders and aliases are unbounded.", "anchors": ["src/rotor/plugin/registry.cpp"]}
{"id": "C50", "title": "The external shutdown flag shuts the supervisor down once", "statement": "When the shutdown flag given to a supervisor becomes true, the supervisor's shutdown is triggered at the next poll, and polling stops; while it is false polling continues with the configured period.", "quantifier": "for every sequence of flag values and timer events", "why_tests_cant": "Sequences are unbounded.", "anchors": ["src/rotor/supervisor.cpp: on_start, on_shutdown_check_timer"]}
{"id": "C51", "title": "Message types are distinguished by identity", "statement": "Two message classes get the same type identity if and only if they are the same class (by its type name), independent of the order and number of registrations, so handlers never receive a message of another type.", "quantifier": "for every sequence of type registrations", "why_tests_cant": "All orders of registrations (and of shared libraries).", "anchors": ["src/rotor/message.cpp: register_type", "src/rotor/subscription.cpp"]}
{"id": "C52", "title": "Timers of event-loop backends are forgotten exactly once", "statement": "In the asio, ev, fltk and wx backends the callback of a timer runs exactly once: as expired, or as cancelled if and only if the actor cancelled it, even if the expiry is already under way in the event loop. Afterwards the supervisor and the actor have forgotten the timer and no event of the loop refers to it; until then it is armed and keeps the supervisor alive. Callbacks may start and cancel other timers.", "quantifier": "for every sequence of start, cancel, expiry and callback actions", "why_tests_cant": "Expiry can race with cancellation inside the loop.", "anchors": ["src/rotor/asio/supervisor_asio.cpp: do_start_timer, do_cancel_timer", "src/rotor/ev/supervisor_ev.cpp: do_start_timer, timer_cb", "src/rotor/fltk/supervisor_fltk.cpp", "src/rotor/wx/supervisor_wx.cpp"]}
{"id": "C53", "title": "A whole tree becomes operational or shuts down", "statement": "For every supervisor tree the initialization of the root ends with every member OPERATIONAL or with the root (and with it every member) SHUT_DOWN; no member is left initialized under a shut-down supervisor. It does come to that: the number of steps is bounded by a constant times the number of user actions and of actors created, and as long as something is under way there is a step that needs no user action.", "quantifier": "for every tree shape, every pattern of init successes and failures and every interleaving", "why_tests_cant": "All trees and failure patterns.", "anchors": ["src/rotor/plugin/child_manager.cpp", "docs/Design.md (composability)"]}
{"id": "C54", "title": "Subscriptions to addresses of other localities stay consistent", "statement": "Subscribing to and unsubscribing from an address that belongs to another locality never fails an assertion or touches an unknown entry in either supervisor, in whatever order the protocol messages are exchanged; when none of them is under way, the owner of the address delivers to the handler exactly if its actor is subscribed.", "quantifier": "for every number of localities, every sequence of subscriptions and unsubscriptions and every interleaving of the event loops", "why_tests_cant": "The protocol spans two event loops; interleavings are unbounded.", "anchors": ["src/rotor/plugin/foreigners_support.cpp: on_subscription_external, on_unsubscription", "src/rotor/supervisor.cpp: subscribe, commit_unsubscription", "src/rotor/plugin/lifetime.cpp: unsubscribe", "src/rotor/plugin/plugin_base.cpp: handle_unsubscription"]}
{"id": "C55", "title": "Messages about children find their records", "statement": "Whatever children do (answer, fail, time out, shut themselves down, restart) and in whatever order their messages arrive, the supervisor never fails an assertion, never looks up a child it has forgotten and never touches the actor of a spawner that has none at the moment.", "quantifier": "for every number of children and spawners, every order of messages, timers and triggers", "why_tests_cant": "Late responses, timers and triggers of a removed child can arrive in any order.", "anchors": ["src/rotor/plugin/child_manager.cpp: on_create, on_spawn, on_init, on_shutdown_trigger, on_shutdown_confirm, remove_child", "src/rotor/actor_base.cpp: init_continue, shutdown_continue"]}
{"id": "C56", "title": "Event-loop backends never forget a message of another thread", "statement": "In the libev, boost.asio and wx backends a message that another thread puts into the inbound queue of a locality is taken once and in the order of the pushes; as long as it is there and the loop is idle, a wake-up of the loop is pending or about to be requested by the sending thread, and messages in the queue of the locality are never left behind without one; the wake-up takes everything that has arrived. All messages of the locality are dispatched once, in the order in which they enter its queue; neither the loop nor a sending thread can get stuck.", "quantifier": "for every number of sending threads and supervisors of the locality and every interleaving of pushes, wake-ups, callbacks, polling, timers and ends of supervisors", "why_tests_cant": "Lost wake-ups need a particular interleaving of a push with the end of polling or of a supervisor; tests hardly ever hit it.", "anchors": ["src/rotor/ev/supervisor_ev.cpp: enqueue, start, on_async, move_inbound_queue, shutdown_finish, timer_cb", "src/rotor/asio/supervisor_asio.cpp: enqueue, start, do_process, shutdown_finish", "include/rotor/asio/forwarder.hpp: operator()", "src/rotor/wx/supervisor_wx.cpp: enqueue, start, shutdown, Notify"]}
{"id": "C57", "title": "An actor is initialized only when its handlers are in effect", "statement": "The init request of an actor is answered positively only when every handler it has subscribed so far (through its starter plugin, on its own or on other addresses) is confirmed, so that the owner of the address delivers to it (unless it was unsubscribed since); the answer is given once, on_start runs at most once and after the answer; once all confirmations have come, the starter plugin does not delay the initialization any longer; no assertion fails on the way.", "quantifier": "for every set of handlers and addresses, every order of confirmations, every behaviour of the other plugins, further subscriptions, unsubscriptions, failures and shutdowns at any time", "why_tests_cant": "Orders of confirmations from other supervisors relative to the other plugins' progress are unbounded.", "anchors": ["src/rotor/plugin/starter.cpp", "include/rotor/supervisor.h: subscribe_actor", "src/rotor/supervisor.cpp: subscribe", "src/rotor/actor_base.cpp: init_continue, on_subscription"]}
{"id": "C58", "title": "A spawner has at most one living instance", "statement": "Among the children of a supervisor at most one instance of the same spawner is alive (created and not shut down) at any time, however messages, restarts, timers, failures and shutdowns interleave; with a limit of attempts there are never more instances than that in total.", "quantifier": "for every supervisor, any number of spawners and children, every sequence of messages, timers and user actions", "why_tests_cant": "The restart races with the removal of the previous instance; the interleavings are unbounded.", "anchors": ["src/rotor/plugin/child_manager.cpp: remove_child, on_spawn, create_child, on_spawn_timer", "src/rotor/detail/child_info.cpp"]}
{"id": "C59", "title": "An actor is not destroyed before its shutdown and not kept after it", "statement": "The handlers of an actor hold it, and its own plugins hold the handlers: when an actor has shut down, no subscription of it is left in the supervisor's table, in the lifetime plugin or in any of its plugins, and after the unsubscription messages still under way nothing of them holds it. Until then its handler for unsubscriptions is subscribed. The supervisor's record holds a child from its creation until the confirmation of its shutdown (and the end of its subscriptions) has been processed, and no longer, if the child was created before the supervisor has finished with its children.", "quantifier": "for every set of plugins and subscriptions, every behaviour of the plugins and the user, every order of messages", "why_tests_cant": "A leaked cycle of references or an early release shows only in particular orders of unsubscription messages.", "anchors": ["src/rotor/plugin/lifetime.cpp", "src/rotor/plugin/plugin_base.cpp: forget_subscription", "src/rotor/handler.cpp", "src/rotor/plugin/child_manager.cpp: remove_child", "src/rotor/actor_base.cpp: shutdown_finish"]}
{"id": "C60", "title": "Every supervisor uses the registry of the nearest supervisor that has one", "statement": "The registry address of a supervisor (which its actors use to register and discover names) is the one it was configured with or that of the registry it creates itself; without either it is the one of its parent, and so on up the tree, null only if there is none above; after the supervisor's construction it never changes.", "quantifier": "for every tree of supervisors, every configuration of each, and every order of creation, also from within configure callbacks", "why_tests_cant": "The address is read at a particular moment of the parent's initialization; all nestings of creation are possible.", "anchors": ["src/rotor/supervisor.cpp: do_initialize", "include/rotor/supervisor_config.h: validate", "src/rotor/plugin/child_manager.cpp: activate, create_child"]}
{"id": "C61", "title": "User code may change the tables the library is walking over", "statement": "While a message is delivered, while the callback of a timer runs and while the callback of a link runs, user code may subscribe and unsubscribe handlers, start and cancel timers and ask for links. The delivery still reaches exactly the handlers subscribed when it began, once each and in order, the table entry that belongs to the callback is the one that is updated, and no invalidated iterator is used.", "quantifier": "for all tables, capacities, growth rules of the containers, handlers and callbacks", "why_tests_cant": "Whether an iterator is still valid depends on the capacity of a vector and the number of buckets of a hash table at that moment, that is on the whole history of the process; a test with few subscriptions, timers or links has room, and undefined behaviour may look right.", "anchors": ["src/rotor/plugin/delivery.cpp:39-50", "src/rotor/subscription.cpp:25-104", "src/rotor/actor_base.cpp:262-268", "src/rotor/plugin/link_client.cpp:50-90", "src/rotor/supervisor.cpp:153-162"]}
{"id": "C62", "title": "A redirected message arrives where it was redirected to", "statement": "A message object that a handler passes on with redirect() is dispatched at the new address exactly once, in the order in which it was put into the queue relative to all other messages, and a message with a next route that is not redirected moves on to that route after its handlers have run. No other message changes its address.", "quantifier": "for all subscriptions, all handlers (sending, routing, redirecting, keeping messages) and all executions of a locality", "why_tests_cant": "redirect() changes the object that other entries of the queue and other handlers refer to; whether this matters depends on how many handlers an address has and on what is in the queue at that time.", "anchors": ["src/rotor/actor_base.cpp:48-52", "include/rotor/supervisor.h:367-374", "include/rotor/supervisor.h:445-469", "include/rotor/actor_base.h:127-148", "include/rotor/message.h:124-151"]}
{"id": "C63", "title": "Unsubscribing a handler stops this handler and no other", "statement": "When an actor unsubscribes a handler, by the handler object or by the method, messages stop reaching exactly this handler once the unsubscription has been processed; all other handlers of this and other actors stay subscribed, including those for the same type of messages at the same address. A handler may be subscribed again afterwards. No assertion fails as long as what is unsubscribed is subscribed.", "quantifier": "for all sets of methods and lambdas, actors, message types and addresses of a locality, all sequences of subscriptions and unsubscriptions, and all moments at which the protocol messages are processed", "why_tests_cant": "Handlers are compared by the name of a C++ type; whether two handlers are taken for one depends on their signatures and on the order of earlier subscriptions.", "anchors": ["include/rotor/handler.h:137-139", "include/rotor/handler.h:270-366", "src/rotor/subscription_point.cpp:24-37", "src/rotor/plugin/lifetime.cpp:57-128", "src/rotor/plugin/plugin_base.cpp:65-97", "include/rotor/supervisor.h:434-443", "include/rotor/supervisor.h:502-509", "include/rotor/actor_base.h:228"]}
{"id": "C64", "title": "A shutdown reason leads to the root cause", "statement": "When actors are shut down because of a failure elsewhere in the tree - the request of their supervisor, an escalated failure, a failed initialization of a child, a spawner that gives up, the end of a server they are linked to - the reason of each of them is a chain of errors that leads from actor to actor to the error with which it began; root() is that error, so restart policies and escalation see whether it was a failure. The reason of an actor below the root says first that its supervisor shut it down.", "quantifier": "for every tree, every configuration of policies and flags, every set of failures and shutdowns, and every order of messages", "why_tests_cant": "Chains grow along the paths on which a failure travels; all combinations of policies, places of failures and orders of messages are possible.", "anchors": ["src/rotor/actor_base.cpp:35-46, 105-119, 270-279", "src/rotor/supervisor.cpp:76-88", "src/rotor/plugin/child_manager.cpp: remove_child, on_init, request_shutdown, handle_shutdown", "src/rotor/plugin/link_client.cpp: try_forget_links", "src/rotor/extended_error.cpp: root"]}
{"id": "C65", "title": "boost.asio: the code of a locality is never run by two threads at once", "statement": "When several threads run one io_context, handlers, timers and the results of asynchronous operations (forwarders) of the actors of one strand, and the processing of the queue and subscriptions of its supervisors, are executed by at most one thread at any time. Each completed operation leads to exactly one call, of the error handler if and only if it failed, in the order of the completions; messages sent by the callback are processed before its closure ends. Every subscriber of a message, in whatever strand, is called for it exactly once. Nothing is used that does not exist any more.", "quantifier": "for every number of threads, strands, supervisors and actors, every assignment of strands, every subscription across localities, and every interleaving", "why_tests_cant": "Races between threads of an io_context appear in rare interleavings, and whether a strand is bypassed depends on how supervisors, strands and subscriptions are arranged.", "anchors": ["include/rotor/asio/forwarder.hpp:113-217", "src/rotor/asio/supervisor_asio.cpp:36-133", "src/rotor/plugin/locality.cpp:31-43", "src/rotor/plugin/delivery.cpp:39-50", "include/rotor/supervisor.h:445-469"]}
{"id": "C66", "title": "A message is destroyed once, when nothing refers to it any more", "statement": "A message stays intact while it is in the queue of a supervisor, in the inbound queue to which other threads push plain pointers, in the closure of an event loop, in a variable of a handler or a member of another message such as a response or a foreign call. When the last of them is gone it is destroyed, once, including when supervisors and the system context end with messages left in their queues; then no message is leaked.", "quantifier": "for every number of supervisors, every number of messages and references between them, and every interleaving of threads, handlers and destructors", "why_tests_cant": "A plain pointer in an inbound queue must carry exactly one reference through every path, also through the ones that happen only when a program ends with messages in flight.", "anchors": ["include/rotor/arc.hpp:15-29", "include/rotor/supervisor.h:182, 445-452", "src/rotor/supervisor.cpp:34-39, 165-171", "src/rotor/system_context.cpp:43-50", "src/rotor/asio/supervisor_asio.cpp:81-84, 113-116", "src/rotor/ev/supervisor_ev.cpp:70-73, 149-157", "src/rotor/thread/system_context_thread.cpp:45-50, 83-92", "src/rotor/fltk/system_context_fltk.cpp:29-58", "src/rotor/wx/supervisor_wx.cpp:68-75"]}
{"id": "C67", "title": "A child that does not stop cannot block the shutdown of its supervisor", "statement": "A child that does not confirm its shutdown within shutdown_timeout is reported to system_context_t::on_error exactly once and then given up: its record is removed once, the supervisor finishes its own shutdown without any help of the child, and a late answer changes nothing. With the on_error of the library the program ends at that point, so that as long as it runs only children that have finished their shutdown are removed. If the application overrides on_error and goes on, the given up child does no further harm.", "quantifier": "for every number of children in the same and other localities, with and without spawners, every order of shutdowns, requests, answers, timers and deliveries", "why_tests_cant": "The answer of a child, its own request to shut down, the timer of the supervisor and further requests of the child race with each other; the orders are unbounded.", "anchors": ["src/rotor/plugin/child_manager.cpp:93-164", "src/rotor/plugin/child_manager.cpp:312-421", "src/rotor/supervisor.cpp:121-144", "src/rotor/system_context.cpp:28-35", "include/rotor/supervisor.h:531-565"]}
{"id": "C68", "title": "The event loop keeps a supervisor exactly as long as it has work for it", "statement": "Timers and closures that the event loops of libev, FLTK, wx and boost.asio hold refer to their supervisor: it is not destroyed while one of them is pending or running, every reference taken is given back exactly once (when the timer has fired or is cancelled, when the closure has run), and a supervisor that nobody else refers to is destroyed when the event loop has nothing left for it.", "quantifier": "for every backend and every interleaving of timers, cancellations, closures and wake-ups with code that starts and cancels timers, finishes the shutdown and drops references from within the callbacks", "why_tests_cant": "A missing or superfluous reference shows only when the last other reference is dropped at a particular moment, and then as a use after free or as a silent leak.", "anchors": ["src/rotor/ev/supervisor_ev.cpp:32-140", "src/rotor/fltk/supervisor_fltk.cpp:32-103", "src/rotor/fltk/system_context_fltk.cpp:29-58", "src/rotor/wx/supervisor_wx.cpp:32-95", "src/rotor/asio/supervisor_asio.cpp:38-91"]}
{"id": "C69", "title": "The FLTK backend leaves no message behind", "statement": "In the FLTK backend messages of other threads are dispatched once each and in the order of their arrival, and whenever the event loop is idle, no message is left in the queue of the locality: neither one sent by a handler, nor one of another thread, nor one sent by the callback of a timer, such as the answer to a request that has timed out.", "quantifier": "for every number of sending threads and every interleaving of pushes, wake-ups, handlers, timers, start, shutdown and calls of do_process", "why_tests_cant": "Tests call do_process in their own loop, which hides what the callbacks of the backend leave behind; the interleavings of the counter with the queue are unbounded.", "anchors": ["src/rotor/fltk/system_context_fltk.cpp:27-58", "src/rotor/fltk/supervisor_fltk.cpp:32-49", "src/rotor/fltk/supervisor_fltk.cpp:79-103"]}
{"id": "C70", "title": "The loop of the thread backend returns exactly when the root supervisor has shut down", "statement": "system_context_thread_t::run returns neither before the root supervisor has shut down nor before everything in the queue of its locality has been dispatched, and as soon as the root supervisor has shut down it returns without waiting for messages, timers or other threads. Until then it is stopped only while it sleeps with nothing to do, or for the moment in which a sender holds the mutex. A message of another thread that arrives when the root supervisor has shut down is not dispatched.", "quantifier": "for every number of sending threads, every interleaving of their steps with those of the loop, every shutdown in a handler or in the callback of a timer, every poll_duration", "why_tests_cant": "A loop that tests its condition at the wrong point sleeps up to a minute after the shutdown, or for ever, only if the shutdown happens at a particular point relative to timers and senders.", "anchors": ["src/rotor/thread/system_context_thread.cpp:38-81", "src/rotor/thread/supervisor_thread.cpp:25-30"]}
{"id": "C71", "title": "configure is called once per plugin and phase, when everything before it is ready", "statement": "configure(plugin) of an actor is called at most once for each plugin in each of the phases PREINIT and INITIALIZING, so that what the user does there (subscribe, link, discover names, acquire resources, set names) is done once; a function given to with_casted is called exactly as often as its phases say. In the phase INITIALIZING a plugin that waits (link client, registry, resources, starter) is configured after the init request has arrived and after every plugin before it in the list has agreed to the initialization, so that names are discovered and links are made before subscriptions and resources. An actor that becomes INITIALIZED has configured all of its plugins, and no assertion of the initialization fails.", "quantifier": "for every list of plugins of the shapes of the library, every code in configure, every behaviour of plugins and every order of requests, messages, releases and shutdowns", "why_tests_cant": "init_continue is called again and again, by different plugins at different moments; that a configuration is neither repeated nor left out depends on flags in each plugin and on the order in which they agree.", "anchors": ["src/rotor/actor_base.cpp:33-72", "src/rotor/actor_base.cpp:97-101", "src/rotor/actor_base.cpp:147-168", "src/rotor/plugin/plugin_base.cpp:30-34", "include/rotor/plugin/plugin_base.h:16, 139-153", "src/rotor/plugin/init_shutdown.cpp:32-51", "src/rotor/plugin/starter.cpp:27-65", "src/rotor/plugin/resources.cpp:30-48", "src/rotor/plugin/registry.cpp:146-152", "src/rotor/plugin/link_client.cpp:135-143", "src/rotor/plugin/address_maker.cpp:36-49", "src/rotor/plugin/child_manager.cpp:65-82"]}
{"id": "C72", "title": "A supervisor takes itself apart completely, its children first", "statement": "A supervisor that shuts down asks its children to shut down and keeps all of its plugins, with the subscriptions they need, as long as it has the record of a child. It keeps the record of a child, and the subscriptions for the responses to the requests of the child, until the child has confirmed its shutdown. Then it gives up everything: when it reports that it is shut down, each subscription ever made by its plugins, by the user, or for responses to its requests and those of its children has been removed exactly once, and no record and no mapped address is left. It reports this once. No assertion fails on the way, no plugin is used after its deactivation although shutdown_continue calls itself, and the shutdown does not get stuck.", "quantifier": "for every list of plugins with lifetime, init_shutdown, child manager and starter in the order of the library, every number of subscriptions, children and requests, every order of confirmations and messages and every vote of the other plugins", "why_tests_cant": "The child manager gives up its subscriptions later than the other plugins, and removing a record starts a round of shutdown_continue inside of another one; whether pointers and records are still there depends on who has children, requests and subscriptions left at that moment.", "anchors": ["src/rotor/plugin/child_manager.cpp:84-163", "src/rotor/plugin/child_manager.cpp:293-346", "src/rotor/plugin/child_manager.cpp:363-441", "src/rotor/plugin/lifetime.cpp:46-133", "src/rotor/plugin/plugin_base.cpp:30-97", "src/rotor/actor_base.cpp:74-93", "src/rotor/actor_base.cpp:121-145", "src/rotor/actor_base.cpp:172-244", "src/rotor/address_mapping.cpp:13-60", "include/rotor/supervisor.h:511-565", "src/rotor/plugin/foreigners_support.cpp:82-94"]}
{"id": "C73", "title": "A chain of spawn settings spawns exactly once, with the values said last", "statement": "sup.spawn(factory).max_attempts(..)....spawn() calls the spawning of the supervisor exactly once for every factory given, with this factory and with the last value said for every setting (15 seconds, restarts after a normal end, any number of attempts, no escalation when nothing was said), whether spawn() is called, called several times, or not at all, in which case the end of the object spawns. What is said after spawn() has no effect. The object can be used until its end.", "quantifier": "for every number of objects, every sequence of settings, calls of spawn, copies and ends of objects", "why_tests_cant": "A destructor that acts is easy to get wrong for temporaries, repeated calls and copies; tests use the one usual form.", "anchors": ["include/rotor/spawner.h:30-72", "src/rotor/spawner.cpp:21-52", "src/rotor/supervisor.cpp:151", "src/rotor/plugin/child_manager.cpp:483-491"]}
{"id": "C74", "title": "The text of a message tells what it is, and the level of inspection hides nothing else", "statement": "The default stringifier gives every message a text whose first word is the name of its type, different for all types of the library and for unknown types, so that messages of different types never read the same. The text ends with the address of the message, it contains the addresses, names, types and numbers that the message carries, the text of the message inside of a handler call to any depth, including what a derived stringifier says about it, and the error or reason; messages that differ only in their error never read the same. With ROTOR_INSPECT_DELIVERY=n exactly the messages up to level n are printed, each with its whole text and a mark that tells deliveries from discarded messages; nothing is printed without the variable.", "quantifier": "for all messages with all texts of addresses, names and errors, every nesting of handler calls, every derived stringifier and every value of the variable", "why_tests_cant": "Tests look for a prefix in the texts of two messages; whether two of the 29 kinds or two errors can be confused depends on all texts at once.", "anchors": ["src/rotor/misc/default_stringifier.cpp:15-303", "include/rotor/misc/default_stringifier.h:15-40", "src/rotor/message_stringifier.cpp:7-10", "src/rotor/plugin/delivery.cpp:52-135"]}
{"id": "C75", "title": "Tagging a handler changes how it is called and nothing else", "statement": "A handler that has been tagged as blocking (tag_io) takes the same messages as before, runs exactly once for each of them, and compares equal to the untagged one, so that it can be unsubscribed and calls underway find it; tagging it again has no effect. For each of its messages the supervisor is told the tag said last before the handler runs. On the thread backend the context is marked as blocking, with its timers brought up to date before and after, exactly while a handler tagged as blocking runs. This holds for all of its messages, wherever they come from.", "quantifier": "for every number of subscriptions and tags in every order, every message, every supervisor (those of the library and those with an intercept of their own), at own and foreign addresses", "why_tests_cant": "The tag is a wrapper around the handler, kept in two tables; tests tag one handler once and look at messages of the own locality.", "anchors": ["src/rotor/handler.cpp:12-71", "include/rotor/handler.h:121-206", "include/rotor/handler.h:243-271", "src/rotor/subscription_point.cpp:16-44", "src/rotor/subscription.cpp:47-62", "src/rotor/supervisor.cpp:119", "src/rotor/thread/supervisor_thread.cpp:32-44", "src/rotor/plugin/foreigners_support.cpp:49-80"]}
{"id": "C76", "title": "With guard_context the loop of boost.asio runs until the supervisor has shut down, and then ends", "statement": "When a supervisor of the boost.asio backend is made with guard_context(true), io_context::run does not return before the supervisor has been through shutdown_finish (or was destroyed), however idle it is in between; a message that another thread is sending meanwhile is never left behind by a loop that has ended. When the loop ends, all such supervisors are over, no closure is left, no timer is waiting. When all of them are over, nothing else keeps the loop: it ends after the closures and timers that are left, in a bounded number of steps. Without guard_context the loop may end while the supervisor is operational.", "quantifier": "for every number of supervisors, localities, timers, threads in run and sending threads, and every interleaving", "why_tests_cant": "The race is between the end of the last closure and a thread between push and defer; tests with two threads use guard_context and hit that moment by chance only.", "anchors": ["src/rotor/asio/supervisor_asio.cpp:29-34", "src/rotor/asio/supervisor_asio.cpp:42-97", "include/rotor/asio/supervisor_config_asio.h:31-34", "include/rotor/asio/supervisor_config_asio.h:64-68", "include/rotor/asio/supervisor_asio.h:113-126"]}
{"id": "C77", "title": "An error tells who failed and why", "statement": "After its activation every actor has an identity that is not empty: what configure said last, by default with the address of the actor, and 'supervisor' or 'actor' with the address if nothing was said. Identities with addresses are different for all actors that live at the same time. The codes of the library, errors and reasons of shutdown, are different, have different texts, and these contain the words by which they are known. The text of an error begins with the identity of the actor that made it and the text of its code, followed by the errors below it (and by the request, if a stringifier is given). Two errors of the library that read the same come from the same actor, have the same code and the same story below them, as long as no name contains the character '<'.", "quantifier": "for all names and sequences of calls in configure, all actors alive at the same time, all values of codes and all chains of errors", "why_tests_cant": "Whether two of the texts can be confused, with each other or with a part of a longer one, depends on all of them at once; tests compare a few whole texts.", "anchors": ["src/rotor/plugin/address_maker.cpp:36-72", "src/rotor/error_code.cpp:11-69", "include/rotor/error_code.h:21-44, 78-88", "src/rotor/actor_base.cpp:281-284", "src/rotor/extended_error.cpp:13-42"]}
{"id": "C78", "title": "Messages left in the queues of a supervisor that is destroyed are released, and those with a second destination go on", "statement": "When a supervisor or a system context is destroyed, every message left in its queues is released: it is destroyed exactly once, as soon as nothing refers to it, and nothing that refers to a message refers to a destroyed one. The destructors come to an end with empty queues. A message with a second destination (make_routed_message) is sent there at most once, and the destruction of a wrapped call for a foreign handler, or the end of a turn, never loses it: it is lost only if the last reference was a pointer kept by user code or if it was still waiting for its first recipients in a queue that is destroyed. Nothing that has been destroyed (a supervisor, a member of the context) is used by these destructors.", "quantifier": "for all numbers of supervisors and contexts, all arrangements of inbound queues, all interleavings of sending, delivering, keeping and dropping messages with the destruction of supervisors and contexts in any order", "why_tests_cant": "It takes a message with a second destination, a subscriber in another thread and a supervisor that is destroyed while the wrapped call is still in a queue; the failing call is made by the destructor of a message, in a destructor, and depends on the last of several references.", "anchors": ["src/rotor/messages.cpp:13-20", "src/rotor/supervisor.cpp:34-39", "src/rotor/system_context.cpp:43-50", "include/rotor/supervisor.h:174, 273-274, 445-469", "src/rotor/plugin/delivery.cpp:41-46", "src/rotor/handler.cpp:34-42", "src/rotor/thread/supervisor_thread.cpp:25-30"]}
{"id": "C79", "title": "A supervisor that shuts down deals with subscribers from other localities without faults and without waiting for them", "statement": "Actors of other localities may ask a supervisor for subscriptions to its addresses, and may give them up, at any time before, during and after its shutdown. A subscription that is given up is always found, and the plugin that handles these messages is never used after its deactivation. Each request is confirmed once or not at all; the supervisor has exactly the subscriptions it has confirmed and not removed, and before the shutdown it misses nothing. The shutdown does not wait for foreign subscribers. As long as a child is there, messages from addresses of other localities are delivered to it. When the supervisor has shut down, no subscription of an actor that has given it up is left, and everybody who asked for one during the shutdown gets an answer.", "quantifier": "for all foreign subscribers of any number of localities, all sequences of subscribing and leaving, all interleavings with the shutdown, with messages and with the end of the children", "why_tests_cant": "The plugin is deactivated by two different causes, its three handlers are removed one after the other, and messages of several localities are on their way meanwhile; the project has no test in which a foreign subscriber stays or leaves while a supervisor shuts down.", "anchors": ["src/rotor/plugin/foreigners_support.cpp:30-94", "src/rotor/plugin/lifetime.cpp:57-73", "src/rotor/plugin/plugin_base.cpp:36-97", "src/rotor/supervisor.cpp:90-109", "src/rotor/subscription.cpp:25-45", "src/rotor/subscription.cpp:75-104", "src/rotor/actor_base.cpp:74-93"]}
{"id": "C80", "title": "Giving up the initialization of a child takes back this request and no other", "statement": "When a child is to be shut down, or is gone, while its supervisor still waits for its initialization, the supervisor takes the request for initialization back: it does not wait for the child any more, the timeout of the request does not fire, and a response that still comes is dropped. All other requests and timers, of this and of all other supervisors, stay as they are; no assertion fails. Every request and every timer ends exactly once, and a request of an actor ends by an answer (the error of its timeout included) or with the end of the actor or of its supervisor. The same holds when a supervisor is told to shut itself down during its own initialization.", "quantifier": "for all trees of supervisors and actors, all assignments of supervisors to localities, all sequences of requests, timers, responses, timeouts, cancellations and ends of actors", "why_tests_cant": "The number of the request is looked up in a table of whoever gives up, and numbers are drawn per locality: it takes two localities, a shutdown in the middle of an initialization and two equal numbers from different counters to discard the request of somebody else, and then nothing happens but that an answer never comes.", "anchors": ["src/rotor/plugin/child_manager.cpp:322-333", "src/rotor/plugin/child_manager.cpp:379-409", "src/rotor/plugin/child_manager.cpp:124", "src/rotor/supervisor.cpp:121-144", "include/rotor/supervisor.h:336-344", "include/rotor/supervisor.h:531-561", "src/rotor/thread/supervisor_thread.cpp:17-23", "src/rotor/ev/supervisor_ev.cpp:85-90"]}
{"id": "C81", "title": "All supervisors of a system context print their messages with one stringifier", "statement": "A system context makes its stringifier at most once, when it is asked first; all supervisors of the context, in whatever threads they are created, and all callers of get_stringifier get a reference to the same object, and it is not destroyed as long as the context lives. Who asks gets it after a bounded number of steps. Supervisors can therefore keep a plain pointer to it. A context takes one root supervisor, the first; another one is not activated and changes nothing. This holds also if get_stringifier is called by several threads at any time.", "quantifier": "for all numbers of supervisors, threads and calls, all interleavings of the steps of get_stringifier", "why_tests_cant": "The member is made on demand without a lock, and a pointer to it is kept by every supervisor; whether a second one can be made depends on which threads can be in the function before the first has finished.", "anchors": ["src/rotor/system_context.cpp:52-61", "include/rotor/system_context.h:46, 70-83", "include/rotor/supervisor.h:351-365", "src/rotor/plugin/delivery.cpp:28-37"]}
{"id": "C82", "title": "Requests between event loops are answered once, to the right one, in order", "statement": "Actors of different event loops may ask each other at the same time, although the numbers of their requests are the same. A response comes to the address that was asked for; it says what somebody replied to just this request, or that nobody did in time. A request has at most one response, whoever replies and how often. At any time a request is waited for, or was taken back with the end of the one who asked, or its response is on its way, or has been seen: exactly one of these. A message that is on its way is seen after a bounded number of turns of the event loops. If the event loops go on, every request is seen by the one who is asked, and if somebody replies or the time is over, the response is seen by the one it was asked for, unless the one who asked has ended. What one actor sends to an address, be it a request, a reply or another message, is seen there in the order in which it was sent; replies count as the responses that are made of them.", "quantifier": "for all actors, supervisors and event loops, all interleavings of requests, replies, other messages, turns of the loops, transfers of inbound queues, timeouts and ends of actors, and all unending executions in which no event loop stops", "why_tests_cant": "The way of a reply leads through three queues in two threads, and a response is made of it on the way; tests have two threads and one request at a time.", "anchors": ["include/rotor/supervisor.h:336-344, 445-469, 511-565", "include/rotor/request.hpp:222-276, 301-313", "src/rotor/supervisor.cpp:121-144, 165-171", "src/rotor/actor_base.cpp:121-145", "src/rotor/thread/system_context_thread.cpp:33-67"]}
