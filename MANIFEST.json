{
 "claims": [
  {
   "property": "C01",
   "status": "proved",
   "theorems": [
    "Verif.Subscription.C01_dispatch_exact",
    "Verif.Subscription.C01_dispatch_multiset",
    "Verif.Subscription.C01_shared_handler_order_counterexample"
   ],
   "note": ""
  },
  {
   "property": "C02",
   "status": "proved",
   "theorems": [
    "Verif.Subscription.C02_unsubscribe_precise",
    "Verif.Subscription.C02_empty_iff_no_live"
   ],
   "note": ""
  },
  {
   "property": "C03",
   "status": "partial",
   "theorems": [
    "Verif.Subscription.C03_tag_in_place_partial",
    "Verif.Subscription.C03_tag_nested_always_faults"
   ],
   "note": "In-place replacement proved for actors of the locality leader; for actors of nested supervisors the code always hits a failed assertion (C03_tag_nested_always_faults)."
  },
  {
   "property": "C04",
   "status": "proved",
   "theorems": [
    "Verif.Net.C04_dispatch_order",
    "Verif.Net.C04_progress"
   ],
   "note": "All handler behaviours, any number of localities and interleavings (sequentially consistent queues)."
  },
  {
   "property": "C05",
   "status": "proved",
   "theorems": [
    "Verif.Net.C05_order_and_once",
    "Verif.Net.C05_in_transit",
    "Verif.Net.C05_dispatch_complete"
   ],
   "note": "Order, at most once, completeness of each dispatch and nothing lost in transit; a foreign subscriber sees the message unless it unsubscribed or shut down before its wrapped call arrives (C07)."
  },
  {
   "property": "C06",
   "status": "proved",
   "theorems": [
    "Verif.Net.C06_own_locality"
   ],
   "note": ""
  },
  {
   "property": "C07",
   "status": "partial",
   "theorems": [
    "Verif.Net.C07_executed_iff_live",
    "Verif.Net.C07_at_most_once",
    "Verif.Net.C07_only_subscribed_partial",
    "Verif.Net.C07_stale_counterexample"
   ],
   "note": "Alive, not shut down, at most once: proved for every run. The subscription: executed only if it exists or was undone earlier; the second case is real (entries made by plugins stay in lifetime_plugin_t::points after the confirmed unsubscription): C07_stale_counterexample."
  },
  {
   "property": "C08",
   "status": "partial",
   "theorems": [
    "Verif.Routing.C08_effect",
    "Verif.Routing.C08_nothing_else",
    "Verif.Routing.C08_route_spent",
    "Verif.Routing.C08_hop_once_after_all",
    "Verif.Routing.C08_hop_has_single_owner",
    "Verif.Routing.C08_hop_taken_partial",
    "Verif.Routing.C08_hop_taken_local",
    "Verif.Routing.C08_reference_dropped",
    "Verif.Routing.C08_lost_hop_counterexample",
    "Verif.Routing.C08_captured_counterexample"
   ],
   "note": "Safety (at most once, only after everybody has finished) for every interleaving. Liveness for all runs in which no two holders are between test and release at the same time; otherwise the claim is false in the code: C08_lost_hop_counterexample. C08_effect, C08_nothing_else: who holds the message and what the steps do; C08_route_spent: there is no third hop."
  },
  {
   "property": "C09",
   "status": "proved",
   "theorems": [
    "Verif.Requests.C09_at_most_one_response"
   ],
   "note": "Between event loops, with equal numbers under way: C82_once, C82_right_one."
  },
  {
   "property": "C10",
   "status": "proved",
   "theorems": [
    "Verif.Requests.C10_given_up",
    "Verif.Requests.C10_every_request_is_accounted",
    "Verif.Requests.C10_timeout_resolves",
    "Verif.Requests.C10_queue_drains",
    "Verif.Requests.C10_no_fault"
   ],
   "note": "That cancel_init takes requests back, and across localities possibly the request of another actor, is modelled in InitCancel (C80_request_answered, C80_apart_counterexample)."
  },
  {
   "property": "C11",
   "status": "proved",
   "theorems": [
    "Verif.Requests.C11_stale_reply_no_effect"
   ],
   "note": ""
  },
  {
   "property": "C12",
   "status": "proved",
   "theorems": [
    "Verif.Requests.C12_responses_in_order",
    "Verif.Requests.C12_response_is_next"
   ],
   "note": "Between event loops: C82_order_partial, and C82_via_order_counterexample for responses that are asked for in a third event loop."
  },
  {
   "property": "C13",
   "status": "partial",
   "theorems": [
    "Verif.RequestIds.C13_drawn",
    "Verif.RequestIds.C13_counts_up",
    "Verif.RequestIds.C13_loop_ends",
    "Verif.RequestIds.C13_leader_requests_unique",
    "Verif.RequestIds.C13_timer_collision_counterexample",
    "Verif.RequestIds.C13_nested_collision_counterexample",
    "Verif.Requests.C13_identities_unique_partial"
   ],
   "note": "Proved as long as the counter has not overflowed, and after any number of overflows for the requests of the locality leader. For user timers and nested supervisors the claim is false after an overflow (only the leader's request_map is consulted): counterexample theorems for every counter width. C13_drawn, C13_counts_up: which identity is drawn next, and that without skipping they count up."
  },
  {
   "property": "C14",
   "status": "proved",
   "theorems": [
    "Verif.Requests.C14_called_once",
    "Verif.Requests.C14_told",
    "Verif.Requests.C14_shut_down_has_nothing_pending",
    "Verif.Requests.C14_restart_on_cancel_counterexample"
   ],
   "note": "Whenever shutdown_finish ends. A callback that restarts a timer on cancellation keeps it from ending at all: C14_restart_on_cancel_counterexample. The callback runs exactly once per timer (C14_called_once) and is told the truth about the cancellation (C14_told)."
  },
  {
   "property": "C15",
   "status": "partial",
   "theorems": [
    "Verif.ThreadTimers.C15_never_early_partial",
    "Verif.ThreadTimers.C15_deadline_order_partial",
    "Verif.ThreadTimers.C15_io_start_partial",
    "Verif.ThreadTimers.C15_stale_time_counterexample"
   ],
   "note": "Proved for all handlers (also blocking ones, which may start and cancel timers) and all callbacks, except that callbacks called while a blocking handler runs must leave the timers alone; due time counts from the time the loop read last (C15_stale_time_counterexample shows a timer firing 0 ms after its start)."
  },
  {
   "property": "C16",
   "status": "partial",
   "theorems": [
    "Verif.ThreadTimers.C16_plain_handlers",
    "Verif.ThreadTimers.C16_callback_exactly_once_partial",
    "Verif.ThreadTimers.C16_cancelled_iff_requested_partial",
    "Verif.ThreadTimers.C16_update_fires_all_partial",
    "Verif.ThreadTimers.C16_io_fires_all_partial",
    "Verif.ThreadTimers.C16_only_failure_partial",
    "Verif.ThreadTimers.C16_io_cancel_counterexample",
    "Verif.ThreadTimers.C16_io_restart_diverges_counterexample"
   ],
   "note": "Proved for all handlers (also blocking ones, which may start and cancel timers) and all callbacks, except that callbacks called while a blocking handler runs must leave the timers alone (else C16_io_restart_diverges_counterexample). C16_only_failure_partial: the one failure inside the library is a blocking handler cancelling a timer that has expired (C16_io_cancel_counterexample). The failing cancellation happens in blocking handlers only (C16_plain_handlers)."
  },
  {
   "property": "C17",
   "status": "proved",
   "theorems": [
    "Verif.ThreadLoop.C17_no_lost_wakeup",
    "Verif.ThreadLoop.C17_no_oversleep",
    "Verif.ThreadLoop.C17_message_is_taken"
   ],
   "note": ""
  },
  {
   "property": "C18",
   "status": "partial",
   "theorems": [
    "Verif.ThreadLoop.C18_root_messages_in_order_partial",
    "Verif.ThreadLoop.C18_nested_never_taken_counterexample"
   ],
   "note": "Root supervisor: proved for every interleaving. For nested supervisors the claim is false in the code (their inbound queue is never drained), which is proved as C18_nested_never_taken_counterexample."
  },
  {
   "property": "C19",
   "status": "partial",
   "theorems": [
    "Verif.Fltk.C19_counted",
    "Verif.Fltk.C19_goes_on",
    "Verif.Fltk.C19_no_lost_wakeup_partial",
    "Verif.Fltk.C19_callback_takes_everything_partial",
    "Verif.Fltk.C19_two_contexts_counterexample"
   ],
   "note": "Proved for one FLTK context per process; with two contexts the claim is false (static counter), proved as C19_two_contexts_counterexample. C19_counted: the counter is the number of wake-ups due; C19_goes_on: nobody is blocked."
  },
  {
   "property": "C20",
   "status": "proved",
   "theorems": [
    "Verif.Registry.C20_registry_is_a_map",
    "Verif.Registry.C20_discovery_answer"
   ],
   "note": ""
  },
  {
   "property": "C21",
   "status": "proved",
   "theorems": [
    "Verif.Registry.C21_name_held_once",
    "Verif.Registry.C21_released_name_is_free"
   ],
   "note": ""
  },
  {
   "property": "C22",
   "status": "proved",
   "theorems": [
    "Verif.Registry.C22_withdraw_exact"
   ],
   "note": ""
  },
  {
   "property": "C23",
   "status": "proved",
   "theorems": [
    "Verif.Registry.C23_promise_answered_once",
    "Verif.Registry.C23_no_wait_for_registered",
    "Verif.Registry.C23_registration_answers_in_order",
    "Verif.Registry.C23_cancel"
   ],
   "note": ""
  },
  {
   "property": "C24",
   "status": "partial",
   "theorems": [
    "Verif.Resources.C24_resources_partial",
    "Verif.Resources.C24_release_resumes_partial",
    "Verif.Resources.C24_held_blocks_init_partial",
    "Verif.Resources.C24_held_blocks_shutdown_partial",
    "Verif.Resources.C24_overflow_counterexample"
   ],
   "note": "Plugin level, fewer than 2^31 acquisitions; beyond that the int accumulation overflows (C24_overflow_counterexample). That a refusing plugin blocks the procedure is C30."
  },
  {
   "property": "C25",
   "status": "proved",
   "theorems": [
    "Verif.Spawner.C25_max_attempts"
   ],
   "note": ""
  },
  {
   "property": "C26",
   "status": "proved",
   "theorems": [
    "Verif.Spawner.C26_restart_policy",
    "Verif.Spawner.C26_scheduled_is_created",
    "Verif.Spawner.C26_throwing_factory"
   ],
   "note": ""
  },
  {
   "property": "C27",
   "status": "proved",
   "theorems": [
    "Verif.Spawner.C27_restart_period",
    "Verif.Spawner.C27_no_lost_restart",
    "Verif.Spawner.C27_wall_clock_counterexample"
   ],
   "note": "For a wall clock without jumps (hypothesis Clocks); with a jump C27_wall_clock_counterexample. Timers assumed not to fire early (C15)."
  },
  {
   "property": "C28",
   "status": "partial",
   "theorems": [
    "Verif.Spawner.C28_escalation_exact_partial",
    "Verif.Spawner.C28_no_flag_no_escalation",
    "Verif.Spawner.C28_never_not_escalated_counterexample",
    "Verif.Spawner.C28_normal_escalated_counterexample"
   ],
   "note": "Exact escalation condition proved; the claim fails for the policies never / ask_actor (crash not escalated) and a normal end of the last permitted instance is escalated: counterexample theorems."
  },
  {
   "property": "C29",
   "status": "partial",
   "theorems": [
    "Verif.Lifecycle.C29_forward_only",
    "Verif.Lifecycle.C29_shut_down_is_final",
    "Verif.Lifecycle.C29_final_run",
    "Verif.Lifecycle.C29_operational_after_initialized",
    "Verif.Lifecycle.C29_continue_counterexample"
   ],
   "note": "For every run without a failed assertion. init_continue asserts INITIALIZING, and a link response that arrives during shutdown violates it (C29_continue_counterexample); with assertions disabled the state would then go back."
  },
  {
   "property": "C30",
   "status": "partial",
   "theorems": [
    "Verif.Lifecycle.C30_order",
    "Verif.Lifecycle.C30_unanimous_init",
    "Verif.Lifecycle.C30_unanimous_shutdown",
    "Verif.Lifecycle.C30_not_again",
    "Verif.Lifecycle.C30_init_progress",
    "Verif.Lifecycle.C30_shutdown_progress",
    "Verif.Lifecycle.C30_late_joiner_counterexample"
   ],
   "note": "For the plugins that take part after activation. A plugin that joins during a pass after its turn is not awaited: C30_late_joiner_counterexample."
  },
  {
   "property": "C31",
   "status": "partial",
   "theorems": [
    "Verif.Lifecycle.C31_init_answered",
    "Verif.Lifecycle.C31_shutdown_answered",
    "Verif.Lifecycle.C31_shutdown_exactly_once",
    "Verif.Lifecycle.C31_init_unanswered_counterexample",
    "Verif.Lifecycle.C31_init_twice_counterexample",
    "Verif.Lifecycle.C31_shutdown_twice_counterexample",
    "Verif.Lifecycle.C31_truthful"
   ],
   "note": "Proved as long as no registration/discovery fails (init) and no client fails to unlink (shutdown); in these cases the request is answered twice: counterexample theorems. The init request of an actor that is shut down first is not answered by the actor but withdrawn by its supervisor. No execution reports a success the actor did not have (C31_truthful)."
  },
  {
   "property": "C32",
   "status": "proved",
   "theorems": [
    "Verif.Lifetime.C32_not_undone_before",
    "Verif.Lifetime.C32_one_reply",
    "Verif.Lifetime.C32_no_subscription_left",
    "Verif.Lifetime.C32_shut_down_means_none",
    "Verif.Lifetime.C32_undone_once",
    "Verif.Lifetime.C32_no_fault",
    "Verif.Lifetime.C32_completes",
    "Verif.Lifetime.C32_request_completes",
    "Verif.Lifetime.C32_late_subscription_counterexample",
    "Verif.Lifetime.C32_late_starter_subscription_counterexample",
    "Verif.Lifetime.C32_late_unsubscription_counterexample",
    "Verif.Lifetime.C32_anonymous_external_counterexample"
   ],
   "note": "Safety for every run, including subscriptions made or undone at any time. Termination and absence of faults when the user does not subscribe/unsubscribe after the plugins were deactivated and makes foreign subscriptions only through the starter; each hypothesis is shown necessary by a counterexample theorem (late subscription: SHUTTING_DOWN for ever). An ordinary actor; for supervisors see C72, for foreign subscriptions C54. Before the shutdown nothing is undone on its own (C32_not_undone_before), and the request is answered once (C32_one_reply)."
  },
  {
   "property": "C33",
   "status": "proved",
   "theorems": [
    "Verif.Lifecycle.C33_first_reason",
    "Verif.Lifecycle.C33_kept",
    "Verif.Lifecycle.C33_has_reason"
   ],
   "note": "For every sequence of requests and triggers and every plugin behaviour."
  },
  {
   "property": "C34",
   "status": "proved",
   "theorems": [
    "Verif.Children.C34_late_counterexample",
    "Verif.Children.C34_confirms",
    "Verif.Children.C34_once",
    "Verif.Children.C34_state",
    "Verif.Children.C34_waits",
    "Verif.Children.C34_root"
   ],
   "note": "For every run: at the confirmation every child created before is past its initialization (children created by plugins during that very pass are not, C34_late_counterexample). Liveness if the other plugins agree: a supervisor that has not answered waits for a child that has not answered or is shutting down."
  },
  {
   "property": "C35",
   "status": "partial",
   "theorems": [
    "Verif.Children.C35_restart_counterexample",
    "Verif.Children.C35_create_counterexample",
    "Verif.Children.C35_closed_counterexample",
    "Verif.Children.C35_timer_counterexample",
    "Verif.Children.C35_last",
    "Verif.Children.C35_asks",
    "Verif.Children.C35_waits",
    "Verif.Children.C35_told"
   ],
   "note": "Proved as long as no child is created, and no spawner creates an instance, after the shutdown has begun, and the plugins behind the child manager agree. Otherwise the claim is false: C35_restart_counterexample, C35_timer_counterexample (the shutdown never completes), C35_create_counterexample, C35_closed_counterexample (a child survives its supervisor). A supervisor told to shut down does (C35_told)."
  },
  {
   "property": "C36",
   "status": "proved",
   "theorems": [
    "Verif.Children.C36_cause",
    "Verif.Children.C36_once",
    "Verif.Children.C36_needed",
    "Verif.Children.C36_trigger"
   ],
   "note": "In every run; and a child shuts down only after the request. Every shutdown of a supervisor has one of the listed causes (C36_cause), and a cause leads to it (C36_trigger)."
  },
  {
   "property": "C37",
   "status": "partial",
   "theorems": [
    "Verif.Children.C37_late_counterexample",
    "Verif.Children.C37_early_counterexample",
    "Verif.Children.C37_cause",
    "Verif.Children.C37_once",
    "Verif.Children.C37_barrier",
    "Verif.Children.C37_all_ready",
    "Verif.Children.C37_all_started",
    "Verif.Children.C37_arrives",
    "Verif.Children.C37_immediate",
    "Verif.Children.C37_started",
    "Verif.Children.C37_root_started"
   ],
   "note": "At most one start message per child, and the barrier, in every run. That all children are initialized when the supervisor starts, and are started, is proved when no child is created between the end of the initialization and the start; otherwise C37_early_counterexample; a child created after a synchronized start is never started (C37_late_counterexample). A start has a cause (C37_cause), a root supervisor starts by itself (C37_root_started)."
  },
  {
   "property": "C38",
   "status": "partial",
   "theorems": [
    "Verif.Children.C38_failed_counterexample",
    "Verif.Children.C38_early_counterexample",
    "Verif.Children.C38_self",
    "Verif.Children.C38_stays",
    "Verif.Children.C38_root",
    "Verif.Children.C38_failed",
    "Verif.Children.C38_child",
    "Verif.Children.C38_removed"
   ],
   "note": "shutdown_self: proved; unnoticed only when the child is shut down before the supervisor has got its own init request (C38_early_counterexample). shutdown_failed: the failure itself affects only the child, but when its shutdown completes during the initialization the supervisor is shut down as well (C38_removed, C38_failed_counterexample), contrary to policy.h."
  },
  {
   "property": "C39",
   "status": "proved",
   "theorems": [
    "Verif.Lifecycle.C39_autoshutdown",
    "Verif.Lifecycle.C39_escalation"
   ],
   "note": "Per actor: exactly when the trigger is sent to the supervisor; what the supervisor does with it is C33/C35/C38."
  },
  {
   "property": "C40",
   "status": "proved",
   "theorems": [
    "Verif.Link.C40_link_cycle_counterexample",
    "Verif.Link.C40_kept_request_counterexample",
    "Verif.Link.C40_server_outlives_clients",
    "Verif.Link.C40_closed_before_shut_down",
    "Verif.Link.C40_shutdown_completes",
    "Verif.Link.C40_begins"
   ],
   "note": "Safety for every run, including expired timers. Completion of the shutdown when no timer expires, the other plugins agree and the clients shut down too without a circle of links; counterexample theorems show that a circle, and a client whose kept link request has expired, block the server for ever. A shutdown request is obeyed at once (C40_begins)."
  },
  {
   "property": "C41",
   "status": "partial",
   "theorems": [
    "Verif.Link.C41_kept_unanswered_counterexample",
    "Verif.Link.C41_confirmed_in_shutdown_counterexample",
    "Verif.Link.C41_expired_link_counterexample",
    "Verif.Link.C41_answered_at_most_once",
    "Verif.Link.C41_rules",
    "Verif.Link.C41_served_at_once",
    "Verif.Link.C41_kept_until_started",
    "Verif.Link.C41_answered_when_quiet",
    "Verif.Link.C41_refusals_are_real",
    "Verif.Link.C41_assertions_hold"
   ],
   "note": "At most once, and by the rules, in every run; served at once or at the start. That every request is answered in the end holds except for a request kept by a server that shuts down before its start, which is never answered (C41_kept_unanswered_counterexample). Assertions on the way hold as long as no request expires, except one when the client shuts down while initializing (counterexample theorems)."
  },
  {
   "property": "C42",
   "status": "partial",
   "theorems": [
    "Verif.Link.C42_late_link_counterexample",
    "Verif.Link.C42_initialized_after_links",
    "Verif.Link.C42_init_answered_once",
    "Verif.Link.C42_refused_link_fails",
    "Verif.Link.C42_waits_for_links_only",
    "Verif.Link.C42_begins",
    "Verif.Link.C42_asks"
   ],
   "note": "Proved as long as no plugin behind the link client (registry, resources, starter or custom ones) asks for a link while it is polled, which would not be awaited (C42_late_link_counterexample), and no link is asked for again while an unlink request of that server is queued. A link the server has taken back before the end of the initialization counts as established. An init request is accepted unless a server is named twice (C42_begins), and so are later links (C42_asks)."
  },
  {
   "property": "C43",
   "status": "partial",
   "theorems": [
    "Verif.Link.C43_unlink_forgotten_counterexample",
    "Verif.Link.C43_expired_unlink_counterexample",
    "Verif.Link.C43_expired_unlink_root_counterexample",
    "Verif.Link.C43_shutdown_answered_twice_counterexample",
    "Verif.Link.C43_stale_request_counterexample",
    "Verif.Link.C43_asked_once",
    "Verif.Link.C43_every_client_asked",
    "Verif.Link.C43_both_sides_agree",
    "Verif.Link.C43_nothing_left",
    "Verif.Link.C43_client_gone",
    "Verif.Link.C43_granted_at_once",
    "Verif.Link.C43_records",
    "Verif.Link.C43_awaited"
   ],
   "note": "At most one request per client in every run; every linked client is asked; when no timer expires both sides agree and nothing is left, unless the client keeps the request because it has clients itself. Such a request is forgotten when these clients leave, the server then waits for ever (C43_unlink_forgotten_counterexample); expired unlink requests lead to failed assertions or a second answer to the shutdown request (counterexample theorems). C43_records: the records are what the history says; C43_awaited: an answer is awaited only for a client on record."
  },
  {
   "property": "C44",
   "status": "partial",
   "theorems": [
    "Verif.AddressMapping.C44_request",
    "Verif.AddressMapping.C44_unsubscribed",
    "Verif.AddressMapping.C44_private_addresses",
    "Verif.AddressMapping.C44_stable_address",
    "Verif.AddressMapping.C44_cleanup_exact",
    "Verif.AddressMapping.C44_two_builders_counterexample"
   ],
   "note": "For every history of requests that are sent as soon as they are built (the usual form request(...).send(...)). C44_request, C44_unsubscribed: a request adds at most one subscription, for its own actor and type, and an unsubscription takes one away. Two requests of one type and one actor, both built before the first is sent, get two addresses, and the cleanup terminates the program: C44_two_builders_counterexample."
  },
  {
   "property": "C45",
   "status": "proved",
   "theorems": [
    "Verif.ExtendedError.C45_with_request",
    "Verif.ExtendedError.C45_root_and_message",
    "Verif.ExtendedError.C45_wrapping_keeps_root",
    "Verif.ExtendedError.C45_stringifier_outermost_only"
   ],
   "note": "C45_with_request: the text with the request of the outermost level rendered."
  },
  {
   "property": "C46",
   "status": "proved",
   "theorems": [
    "Verif.Inspect.C46_delivers",
    "Verif.Inspect.C46_turns",
    "Verif.Inspect.C46_printed",
    "Verif.Inspect.C46_equivalent",
    "Verif.Inspect.C46_silent_when_idle",
    "Verif.Inspect.C46_stolen_pointer_counterexample"
   ],
   "note": "For handlers that leave the message pointer in place (all handler classes of the library); hypothesis shown necessary by C46_stolen_pointer_counterexample. C46_delivers, C46_turns, C46_printed: every dispatch that happens calls every handler once and prints what the inspecting delivery promises."
  },
  {
   "property": "C47",
   "status": "proved",
   "theorems": [
    "Verif.Locality.C47_created",
    "Verif.Locality.C47_creatable",
    "Verif.Locality.C47_leader_is_group",
    "Verif.Locality.C47_local_dispatch",
    "Verif.Locality.C47_single_loop",
    "Verif.Locality.C47_split_strand_counterexample"
   ],
   "note": "C47_created, C47_creatable: each creation makes one supervisor at its strand or at the locality of the root above it, and fails only without a parent."
  },
  {
   "property": "C48",
   "status": "proved",
   "theorems": [
    "Verif.Config.C48_wellformed_creates",
    "Verif.Config.C48_one_root"
   ],
   "note": ""
  },
  {
   "property": "C49",
   "status": "partial",
   "theorems": [
    "Verif.RegPlugin.C49_cancel",
    "Verif.RegPlugin.C49_last_answer_partial",
    "Verif.RegPlugin.C49_late_counterexample",
    "Verif.RegPlugin.C49_revived_counterexample",
    "Verif.RegPlugin.C49_twice_counterexample",
    "Verif.RegPlugin.C49_answered_counterexample",
    "Verif.RegPlugin.C49_registering_counterexample",
    "Verif.RegPlugin.C49_discovering_counterexample",
    "Verif.RegPlugin.C49_cancelled_counterexample",
    "Verif.RegPlugin.C49_destroyed_counterexample",
    "Verif.RegPlugin.C49_callback_counterexample",
    "Verif.RegPlugin.C49_stays_counterexample",
    "Verif.RegPlugin.C49_shared_counterexample",
    "Verif.RegPlugin.C49_poked_counterexample",
    "Verif.RegPlugin.C49_linked_counterexample",
    "Verif.RegPlugin.C49_down_counterexample",
    "Verif.RegPlugin.C49_success_final",
    "Verif.RegPlugin.C49_progress_partial",
    "Verif.RegPlugin.C49_answered_partial",
    "Verif.RegPlugin.C49_complete_partial",
    "Verif.RegPlugin.C49_fails",
    "Verif.RegPlugin.C49_stored",
    "Verif.RegPlugin.C49_once",
    "Verif.RegPlugin.C49_variable",
    "Verif.RegPlugin.C49_all_reported",
    "Verif.RegPlugin.C49_dereg",
    "Verif.RegPlugin.C49_safe_partial"
   ],
   "note": "Proved for every set of names (with distinct variables) and every order of answers, as long as the user does not write to the variables: a positive answer follows everything asked for (unless a negative answer came before), a failure fails the initialization, callbacks are told the truth and are called once, an address is linked once and reports all its names, names are given up exactly once. The counterexamples show what the code does not guarantee: a name found after its address was linked is never reported, a second answer after a failure, assertions and dangling references when a shutdown overlaps names in flight. C49_progress_partial and C49_answered_partial: when nothing is pending and no name was found late, the initialization completes at the next poll, or has been completed if the other plugins agree. C49_safe_partial: no assertion fails and nothing dangles as long as no answer comes after a failure, no name is found at an address linked otherwise and the shutdown starts with nothing in flight. C49_success_final: a positive answer is the last one. Only delayed discoveries under way are cancelled, and all of them are (C49_cancel); the last answer lets the shutdown go on (C49_last_answer_partial)."
  },
  {
   "property": "C50",
   "status": "proved",
   "theorems": [
    "Verif.ShutdownFlag.C50_polled",
    "Verif.ShutdownFlag.C50_goes_on",
    "Verif.ShutdownFlag.C50_triggered",
    "Verif.ShutdownFlag.C50_flag_triggers_once",
    "Verif.ShutdownFlag.C50_poll_decides",
    "Verif.ShutdownFlag.C50_operational_polls",
    "Verif.ShutdownFlag.C50_not_polled_before_start"
   ],
   "note": "C50_polled, C50_triggered: the looks at the flag and the triggers are those the history says; C50_goes_on: a look that is due takes place."
  },
  {
   "property": "C51",
   "status": "proved",
   "theorems": [
    "Verif.TypeRegistry.C51_same_identity_iff_same_class"
   ],
   "note": ""
  },
  {
   "property": "C52",
   "status": "proved",
   "theorems": [
    "Verif.LoopTimers.C52_start",
    "Verif.LoopTimers.C52_cancel",
    "Verif.LoopTimers.C52_cancel_quiet",
    "Verif.LoopTimers.C52_expires",
    "Verif.LoopTimers.C52_counted",
    "Verif.LoopTimers.C52_no_fault",
    "Verif.LoopTimers.C52_exactly_once",
    "Verif.LoopTimers.C52_tables",
    "Verif.LoopTimers.C52_not_lost",
    "Verif.LoopTimers.C52_expiry",
    "Verif.LoopTimers.C52_references"
   ],
   "note": "For all four backends, arbitrary callbacks and event sequences. The event loop is the set of armed timers (trusted: a stopped ev/fltk/wx timer does not fire). Excluded as misuse: cancelling a timer that is not pending, or from within its own callback (then the code invokes the callback twice and erases a dangling iterator: C61_timer_self_faults). The rehash of the map of an actor during a callback is the subject of C61. C52_start, C52_cancel, C52_cancel_quiet, C52_expires: each call and each expiry has its effect at once; C52_counted: the references held for timers are exact."
  },
  {
   "property": "C53",
   "status": "partial",
   "theorems": [
    "Verif.Tree.C53_late_counterexample",
    "Verif.Tree.C53_stuck_counterexample",
    "Verif.Tree.C53_left_counterexample",
    "Verif.Tree.C53_deliverable",
    "Verif.Tree.C53_below",
    "Verif.Tree.C53_ends_partial",
    "Verif.Tree.C53_failed",
    "Verif.Tree.C53_bounded",
    "Verif.Tree.C53_rest",
    "Verif.Tree.C53_next",
    "Verif.Tree.C53_outcome",
    "Verif.Tree.C53_still",
    "Verif.Tree.C53_calm",
    "Verif.Tree.C53_up"
   ],
   "note": "For trees of any shape and depth: when nothing is going on any more (no message, no actor about to answer or shutting down), either the root is OPERATIONAL and every actor is OPERATIONAL or was shut down, or every actor is SHUT_DOWN; no actor below a SHUT_DOWN supervisor is left. Assumes that the other plugins agree, that nothing is created during a shutdown, and with synchronize_start that nothing is created after the initialization; each of these is necessary (counterexample theorems). Executions come to rest: C53_bounded and C53_rest bound the steps by 43 per user action and per actor created (a spawner that restarts a failing actor creates actors, for ever if its policy says so), C53_next gives the next step while something is under way, C53_outcome puts them together, C53_still: a tree at rest stays so until user code acts. Nobody begins to shut down without a cause (C53_calm), and a tree to which nothing bad happens becomes operational completely (C53_up)."
  },
  {
   "property": "C54",
   "status": "partial",
   "theorems": [
    "Verif.Net.C54_no_fault",
    "Verif.Net.C54_agreement",
    "Verif.Net.C54_local",
    "Verif.Net.C54_anonymous_counterexample",
    "Verif.Net.C54_subscribed",
    "Verif.Net.C54_unsubscribing",
    "Verif.Net.C54_effect"
   ],
   "note": "Proved for subscriptions made by plugins (starter); for anonymous subscriptions of an actor (actor_base_t::subscribe) to a foreign address the claim is false, see C54_anonymous_counterexample. What a subscription has put on record is in the tables (C54_subscribed), what is being undone is known to the actor (C54_unsubscribing), and both requests have their effect at once (C54_effect)."
  },
  {
   "property": "C55",
   "status": "partial",
   "theorems": [
    "Verif.Children.C55_timeout_counterexample",
    "Verif.Children.C55_safe"
   ],
   "note": "Proved for every run in which the timer of an init request does not expire after the child has been asked to shut down; otherwise the actor in the record may be null (C55_timeout_counterexample)."
  },
  {
   "property": "C56",
   "status": "partial",
   "theorems": [
    "Verif.AsioLoop.C56_asio_each_once",
    "Verif.AsioLoop.C56_asio_closures",
    "Verif.AsioLoop.C56_asio_goes_on",
    "Verif.AsioLoop.C56_asio_no_lost_wakeup",
    "Verif.AsioLoop.C56_asio_order",
    "Verif.AsioLoop.C56_asio_taken",
    "Verif.EvLoop.C56_ev_each_once",
    "Verif.EvLoop.C56_ev_goes_on",
    "Verif.EvLoop.C56_ev_no_lost_wakeup_partial",
    "Verif.EvLoop.C56_ev_order",
    "Verif.EvLoop.C56_ev_taken",
    "Verif.EvLoop.C56_ev_late_counterexample",
    "Verif.WxLoop.C56_wx_each_once",
    "Verif.WxLoop.C56_wx_closures",
    "Verif.WxLoop.C56_wx_goes_on",
    "Verif.WxLoop.C56_wx_order",
    "Verif.WxLoop.C56_wx_no_lost_wakeup",
    "Verif.WxLoop.C56_wx_taken"
   ],
   "note": "boost.asio: proved. libev: proved for messages enqueued through a supervisor that has not ended; a message enqueued through an ended nested supervisor stays in the queue of the locality without a wake-up (C56_ev_late_counterexample). wx: proved. C56_asio_each_once, C56_ev_each_once, C56_wx_each_once: everything that enters the queue of the locality is dispatched once and in order; C56_asio_closures, C56_wx_closures: each closure runs once and in order; the .._goes_on theorems: no step of the loop or of a sender is blocked."
  },
  {
   "property": "C57",
   "status": "partial",
   "theorems": [
    "Verif.Starter.C57_asked_partial",
    "Verif.Starter.C57_late_counterexample",
    "Verif.Starter.C57_stuck",
    "Verif.Starter.C57_failed_counterexample",
    "Verif.Starter.C57_again_counterexample",
    "Verif.Starter.C57_behind_counterexample",
    "Verif.Starter.C57_progress_partial",
    "Verif.Starter.C57_complete_partial",
    "Verif.Starter.C57_safe_partial",
    "Verif.Starter.C57_awaited",
    "Verif.Starter.C57_order"
   ],
   "note": "Waiting for the confirmations, one answer and one on_start: proved whenever the starter is the last plugin, as in the lists of the library (C57_behind_counterexample otherwise). That the plugin does not delay the initialization is proved unless a handler is subscribed between the last confirmation and the end of the initialization: then the actor never initializes (C57_late_counterexample, C57_stuck). No assertion fails unless the init request is answered with an error while confirmations are under way (C57_failed_counterexample) or a handler is subscribed again that the plugin still tracks (C57_again_counterexample). C57_asked_partial says the completion in terms of the init request."
  },
  {
   "property": "C58",
   "status": "proved",
   "theorems": [
    "Verif.Children.C58_single",
    "Verif.Children.C58_limit",
    "Verif.Children.C58_not_forgotten"
   ],
   "note": "For every execution of the model of a supervisor with all its children and spawners, without restrictions. No spawner is forgotten: C58_not_forgotten."
  },
  {
   "property": "C59",
   "status": "proved",
   "theorems": [
    "Verif.Children.C59_record_kept",
    "Verif.Children.C59_record_freed",
    "Verif.Lifetime.C59_released",
    "Verif.Lifetime.C59_drained",
    "Verif.Lifetime.C59_kept",
    "Verif.Lifetime.C59_deactivating"
   ],
   "note": "Subscriptions and records only: references held by the user, by payloads of messages and by pending requests or timers are not counted. The lower bound (C59_kept) is for users who do not subscribe or unsubscribe after the deactivation of the plugins. C59_deactivating adds that while a plugin is being deactivated the lifetime plugin itself owns a subscription that holds the actor, so the assertion in the destructor cannot fail."
  },
  {
   "property": "C60",
   "status": "partial",
   "theorems": [
    "Verif.RegTree.C60_recorded",
    "Verif.RegTree.C60_nearest_partial",
    "Verif.RegTree.C60_stable",
    "Verif.RegTree.C60_early_counterexample"
   ],
   "note": "Proved for every run in which a supervisor created while do_initialize of its parent is running (in configure of a plugin) has a registry itself or its parent was given one. Otherwise it never gets the registry its parent creates: C60_early_counterexample, for all such runs. C60_recorded: every creation and every end of an initialization is recorded as ordered and changes nobody else."
  },
  {
   "property": "C61",
   "status": "partial",
   "theorems": [
    "Verif.Reentry.C61_delivery_partial",
    "Verif.Reentry.C61_single",
    "Verif.Reentry.C61_moved_faults",
    "Verif.Reentry.C61_removed_faults",
    "Verif.Reentry.C61_subscribe_counterexample",
    "Verif.Reentry.C61_unsubscribe_counterexample",
    "Verif.Reentry.C61_skipped_counterexample",
    "Verif.Reentry.C61_timer_partial",
    "Verif.Reentry.C61_timer_rehash_faults",
    "Verif.Reentry.C61_timer_self_faults",
    "Verif.Reentry.C61_link_partial",
    "Verif.Reentry.C61_link_rehash_faults"
   ],
   "note": "Proved, for every user code, when no handler of the very address and type that is being delivered is unsubscribed before the last handler is called and the list has room for those subscribed meanwhile (other lists may change in any way; a list of a single handler may be changed in any way: C61_single), and when the tables of timers and links have buckets for what the callback adds. Outside of that the claim is false: C61_moved_faults, C61_removed_faults, C61_timer_rehash_faults, C61_timer_self_faults (a timer callback that cancels its own timer) and C61_link_rehash_faults show that an invalidated iterator is used, C61_skipped_counterexample that a handler is passed over silently."
  },
  {
   "property": "C62",
   "status": "partial",
   "theorems": [
    "Verif.Redirect.C62_called",
    "Verif.Redirect.C62_recorded",
    "Verif.Redirect.C62_hop",
    "Verif.Redirect.C62_order_partial",
    "Verif.Redirect.C62_arrives_partial",
    "Verif.Redirect.C62_single_arrives",
    "Verif.Redirect.C62_next_route",
    "Verif.Redirect.C62_two_handlers_counterexample",
    "Verif.Redirect.C62_dropped_route_counterexample"
   ],
   "note": "Order and arrival for every execution in which no message is redirected while it waits in the queue; this never happens when an address has one handler and the handler redirects at most once (C62_single_arrives, C62_next_route, without further assumptions). With two redirecting handlers the claim is false: the object is dispatched twice at the second address and never at the first (C62_two_handlers_counterexample). A redirect without a next address drops the route the message had (C62_dropped_route_counterexample). C62_called, C62_recorded, C62_hop: each turn calls exactly the handlers of the address, and the next route is taken exactly when the loop has the only reference."
  },
  {
   "property": "C63",
   "status": "partial",
   "theorems": [
    "Verif.HandlerId.C63_exact_partial",
    "Verif.HandlerId.C63_exact_rest_partial",
    "Verif.HandlerId.C63_others",
    "Verif.HandlerId.C63_by_method_counterexample",
    "Verif.HandlerId.C63_latest_counterexample",
    "Verif.HandlerId.C63_methods_counterexample",
    "Verif.HandlerId.C63_lambdas_counterexample",
    "Verif.HandlerId.C63_starter_counterexample",
    "Verif.HandlerId.C63_foreign_check_counterexample",
    "Verif.HandlerId.C63_handled"
   ],
   "note": "Proved when no two handlers with the same signature (methods of one class, or lambdas, for one type of messages) are subscribed by one actor to one address at the same time, and only supervisors unsubscribe by the method. Otherwise the claim is false: the code takes such handlers for one (C63_methods_counterexample, C63_lambdas_counterexample, C63_starter_counterexample, C63_foreign_check_counterexample; C63_latest_counterexample says for every execution which one is hit), and unsubscribing by the method fails in every actor that is not a supervisor, for every execution (C63_by_method_counterexample). C63_others needs no such assumption: handlers that differ in actor, address, message type or class are never affected. The handling of a subscription message never fails, even with alike handlers or a handler unsubscribed twice, and takes at most one subscription away (C63_handled)."
  },
  {
   "property": "C64",
   "status": "partial",
   "theorems": [
    "Verif.Reasons.C64_trail",
    "Verif.Reasons.C64_root_partial",
    "Verif.Reasons.C64_single_partial",
    "Verif.Reasons.C64_root",
    "Verif.Reasons.C64_head",
    "Verif.Reasons.C64_started_partial",
    "Verif.Reasons.C64_unlink_counterexample",
    "Verif.Reasons.C64_lost_self_counterexample",
    "Verif.Reasons.C64_lost_failed_counterexample"
   ],
   "note": "C64_trail, C64_head and C64_root hold for every execution; the latter says that the chain ends in a cause or in one of three errors the library makes in place of the one it knows: at the end of a server (unlink_requested), and when a child is lost while its supervisor is initializing (child_down, failure_escalation). There the claim is false: C64_unlink_counterexample, C64_lost_self_counterexample, C64_lost_failed_counterexample (a normal end becomes an abnormal one). Without these events: C64_root_partial, C64_single_partial; C64_started_partial says in terms of operations when none of them happens (no unlinking, only children that have been started are removed)."
  },
  {
   "property": "C65",
   "status": "partial",
   "theorems": [
    "Verif.Strands.C65_exist_partial",
    "Verif.Strands.C65_pending_operation_counterexample",
    "Verif.Strands.C65_pending_callback_counterexample",
    "Verif.Strands.C65_late_message_counterexample",
    "Verif.Strands.C65_late_send_counterexample",
    "Verif.Strands.C65_calls",
    "Verif.Strands.C65_called_in_strand",
    "Verif.Strands.C65_processed",
    "Verif.Strands.C65_inbound_taken",
    "Verif.Strands.C65_nothing_left_partial",
    "Verif.Strands.C65_each_once",
    "Verif.Strands.C65_each_called_partial",
    "Verif.Strands.C65_exclusive",
    "Verif.Strands.C65_leader_exclusive",
    "Verif.Strands.C65_code_and_leader"
   ],
   "note": "Mutual exclusion, the calls of forwarders and the processing after a callback hold for every execution. That no released supervisor is used is proved for users who release a supervisor only when no operation of its actors and no closure of the supervisors below it in its locality is left (its own closures and timers hold it) and who do not send to it afterwards (C65_exist_partial); without this it is false (C65_pending_operation_counterexample, C65_pending_callback_counterexample, C65_late_message_counterexample, C65_late_send_counterexample). That a strand runs its closures one after the other and in order is taken from boost.asio. Every actor that is a subscriber of a message when it is dispatched is called for it exactly once, directly or by a foreign call in its own strand (C65_each_once, accounting for calls underway and for those that find the actor gone); a strand without closures has empty inbound queues (C65_inbound_taken) and, if its supervisors are one group, empty message queues and no missing calls (C65_nothing_left_partial, C65_each_called_partial). If the supervisors of a strand are not one group, messages get lost: C47_split_strand_counterexample."
  },
  {
   "property": "C66",
   "status": "proved",
   "theorems": [
    "Verif.MsgCount.C66_goes_on",
    "Verif.MsgCount.C66_moves",
    "Verif.MsgCount.C66_safe",
    "Verif.MsgCount.C66_once",
    "Verif.MsgCount.C66_kept",
    "Verif.MsgCount.C66_released",
    "Verif.MsgCount.C66_no_leak"
   ],
   "note": "For senders that do not use an address of a destroyed supervisor; counters as compiled by default (atomic). C66_goes_on: exactly the legal steps are possible; C66_moves: each of them moves the references it is meant to move."
  },
  {
   "property": "C67",
   "status": "partial",
   "theorems": [
    "Verif.ShutTimeout.C67_reported_once",
    "Verif.ShutTimeout.C67_default_confirmed",
    "Verif.ShutTimeout.C67_no_fault_partial",
    "Verif.ShutTimeout.C67_shutdown_ends_partial",
    "Verif.ShutTimeout.C67_deaf_child_counterexample",
    "Verif.ShutTimeout.C67_late_request_counterexample",
    "Verif.ShutTimeout.C67_two_instances_counterexample",
    "Verif.ShutTimeout.C67_default_fatal_counterexample"
   ],
   "note": "C67_reported_once and C67_default_confirmed hold for every execution. With an overridden on_error, that nothing fails and that the shutdown ends are proved when a timer does not fire before the child got the request (always so for children of the same locality) and given up children make no requests (C67_no_fault_partial, C67_shutdown_ends_partial). Without this it is false: C67_deaf_child_counterexample (the child later triggers its own shutdown, at() throws in a noexcept method), C67_late_request_counterexample (assertion in remove_child). A spawner makes the next instance while the given up one still runs (C67_two_instances_counterexample)."
  },
  {
   "property": "C68",
   "status": "partial",
   "theorems": [
    "Verif.SupRefs.C68_timer_called",
    "Verif.SupRefs.C68_called_timer",
    "Verif.SupRefs.C68_stopped_watcher",
    "Verif.SupRefs.C68_counter",
    "Verif.SupRefs.C68_no_leak",
    "Verif.SupRefs.C68_pending_keeps",
    "Verif.SupRefs.C68_timers_safe",
    "Verif.SupRefs.C68_no_use_after_free_partial",
    "Verif.SupRefs.C68_ev_on_async_counterexample",
    "Verif.SupRefs.C68_ev_watcher_counterexample",
    "Verif.SupRefs.C68_fltk_callback_counterexample",
    "Verif.SupRefs.C68_wx_last_timer_counterexample",
    "Verif.SupRefs.C68_asio_cancel_counterexample"
   ],
   "note": "C68_counter, C68_no_leak and C68_pending_keeps hold for every backend and every execution, C68_timers_safe for all executions of libev and FLTK. That nothing at all uses a destroyed supervisor is proved when the last other reference is dropped late enough (C68_no_use_after_free_partial). Otherwise it is false: the watcher of libev and the message callback of FLTK have no reference (C68_ev_on_async_counterexample: a nested supervisor that ends while its own on_async processes the queue; C68_ev_watcher_counterexample, C68_fltk_callback_counterexample), the timer of wx gives its reference up before it calls do_process (C68_wx_last_timer_counterexample), a cancellation of asio has none (C68_asio_cancel_counterexample). C68_timer_called, C68_called_timer: libev, FLTK and wx call exactly the timers of the map; C68_stopped_watcher: after the end of the shutdown the watcher of libev is not called again."
  },
  {
   "property": "C69",
   "status": "partial",
   "theorems": [
    "Verif.FltkLoop.C69_each_once",
    "Verif.FltkLoop.C69_counted",
    "Verif.FltkLoop.C69_goes_on",
    "Verif.FltkLoop.C69_order",
    "Verif.FltkLoop.C69_all_dispatched",
    "Verif.FltkLoop.C69_none_left_partial",
    "Verif.FltkLoop.C69_none_left_without_timers",
    "Verif.FltkLoop.C69_process_takes_all",
    "Verif.FltkLoop.C69_timer_counterexample",
    "Verif.FltkLoop.C69_refines_protocol"
   ],
   "note": "Order and completeness for messages of other threads hold for every execution of one context (C69_order, C69_all_dispatched); nothing else is left behind either (C69_none_left_partial, C69_none_left_without_timers), but messages sent by callbacks of timers are: on_timeout does not call do_process (C69_timer_counterexample), the user has to (C69_process_takes_all). C69_refines_protocol connects the model to that of C19. A second context in the process is excluded, see C19_two_contexts_counterexample. C69_each_once: every message that enters the queue is dispatched once and in order; C69_counted, C69_goes_on: the wake-up protocol neither loses count nor blocks."
  },
  {
   "property": "C70",
   "status": "proved",
   "theorems": [
    "Verif.ThreadLoop.C70_not_early",
    "Verif.ThreadLoop.C70_returns",
    "Verif.ThreadLoop.C70_goes_on",
    "Verif.ThreadLoop.C70_late_counterexample"
   ],
   "note": "All clauses. C70_late_counterexample shows the message that arrives too late; it is freed by the destructor of the supervisor (C66)."
  },
  {
   "property": "C71",
   "status": "partial",
   "theorems": [
    "Verif.Configure.C71_polled",
    "Verif.Configure.C71_late_request",
    "Verif.Configure.C71_first_request",
    "Verif.Configure.C71_once",
    "Verif.Configure.C71_after_others",
    "Verif.Configure.C71_nobody_forgotten",
    "Verif.Configure.C71_with_casted",
    "Verif.Configure.C71_no_fault_partial",
    "Verif.Configure.C71_starter_last",
    "Verif.Configure.C71_supervisor_starter_last",
    "Verif.Configure.C71_library_actor",
    "Verif.Configure.C71_library_supervisor",
    "Verif.Configure.C71_second_request_counterexample",
    "Verif.Configure.C71_early_release_counterexample",
    "Verif.Configure.C71_preinit_ignored_counterexample"
   ],
   "note": "C71_once, C71_with_casted, C71_after_others, C71_nobody_forgotten and C71_starter_last hold for every execution. That no assertion fails is proved for one init request per actor and for resources that are not released before it (C71_no_fault_partial); otherwise it is false (C71_second_request_counterexample, C71_early_release_counterexample). Functions for the phase PREINIT are never called for plugins other than the starter and the resources (C71_preinit_ignored_counterexample). C71_polled: what one round of asking does, who is asked, who still takes part, and when the actor is initialized; C71_first_request, C71_late_request: the request starts a round, a request at another time does nothing."
  },
  {
   "property": "C72",
   "status": "partial",
   "theorems": [
    "Verif.SupTeardown.C72_foreigners_first_counterexample",
    "Verif.SupTeardown.C72_late_first_request_counterexample",
    "Verif.SupTeardown.C72_late_request_counterexample",
    "Verif.SupTeardown.C72_no_fault",
    "Verif.SupTeardown.C72_nothing_left",
    "Verif.SupTeardown.C72_reply_once",
    "Verif.SupTeardown.C72_removed_once",
    "Verif.SupTeardown.C72_children_first",
    "Verif.SupTeardown.C72_kept_until_confirmed",
    "Verif.SupTeardown.C72_drains",
    "Verif.SupTeardown.C72_completes_alone",
    "Verif.SupTeardown.C72_completes"
   ],
   "note": "All clauses hold for every execution in which the supervisor makes no request and no subscription after its plugins were deactivated (C72_no_fault, C72_nothing_left, C72_reply_once, C72_removed_once, C72_children_first, C72_kept_until_confirmed, C72_drains, C72_completes, C72_completes_alone). A request made then in a handler that is still subscribed crashes the supervisor or keeps it SHUTTING_DOWN for ever (C72_late_first_request_counterexample, C72_late_request_counterexample). Two request builders at a time are excluded as well, see C44. External subscriptions are in C32. That all plugins are kept as long as there are children holds for all but the plugin for subscribers of other localities: it is deactivated at once when the last of them leaves during the shutdown (C72_foreigners_first_counterexample, see C79); the other clauses hold with this early deactivation too."
  },
  {
   "property": "C73",
   "status": "partial",
   "theorems": [
    "Verif.SpawnBuilder.C73_at_most_once",
    "Verif.SpawnBuilder.C73_exactly_once",
    "Verif.SpawnBuilder.C73_nobody_else",
    "Verif.SpawnBuilder.C73_usable",
    "Verif.SpawnBuilder.C73_kept_chain_counterexample",
    "Verif.SpawnBuilder.C73_late_setting"
   ],
   "note": "Proved for executions in which no spawner is copied (C73_exactly_once, C73_nobody_else); with copies each object still calls at most once, with a factory of the user (C73_at_most_once). A variable initialised from a chain of setters is a copy, since spawner_t declares a destructor and thereby no move constructor: one factory is spawned twice, C73_kept_chain_counterexample. That the object is usable until its end: C73_usable; settings made too late: C73_late_setting."
  },
  {
   "property": "C74",
   "status": "proved",
   "theorems": [
    "Verif.Texts.C74_first_word",
    "Verif.Texts.C74_kinds_differ",
    "Verif.Texts.C74_own_keeps",
    "Verif.Texts.C74_destination",
    "Verif.Texts.C74_nested",
    "Verif.Texts.C74_own_shown",
    "Verif.Texts.C74_errors_differ",
    "Verif.Texts.C74_errors_shown",
    "Verif.Texts.C74_parts_shown",
    "Verif.Texts.C74_lines_differ",
    "Verif.Texts.C74_line",
    "Verif.Texts.C74_levels",
    "Verif.Texts.C74_value",
    "Verif.Texts.C74_link_level_counterexample"
   ],
   "note": "All kinds of messages of the library and those of the user; addresses, names, type names and errors are arbitrary texts. C74_link_level_counterexample records that the answers to link requests are shown from a lower level on than the requests."
  },
  {
   "property": "C75",
   "status": "partial",
   "theorems": [
    "Verif.Intercept.C75_own_address",
    "Verif.Intercept.C75_flag_off",
    "Verif.Intercept.C75_foreign_untagged",
    "Verif.Intercept.C75_foreign_counterexample",
    "Verif.Intercept.C75_equal"
   ],
   "note": "Proved for addresses of the own locality (C75_own_address, C75_flag_off, C75_equal), for supervisors that lead their locality (for the others tagging fails, C03). For addresses of other localities it is false: the foreign supervisor keeps the handler as it was when it was subscribed, so a handler tagged as blocking is called as an ordinary one (C75_foreign_untagged for every history, C75_foreign_counterexample)."
  },
  {
   "property": "C76",
   "status": "proved",
   "theorems": [
    "Verif.AsioGuard.C76_guarded",
    "Verif.AsioGuard.C76_nothing_left",
    "Verif.AsioGuard.C76_returns",
    "Verif.AsioGuard.C76_no_message_forgotten",
    "Verif.AsioGuard.C76_terminates",
    "Verif.AsioGuard.C76_stopped",
    "Verif.AsioGuard.C76_unguarded_counterexample",
    "Verif.AsioGuard.C76_timers",
    "Verif.AsioGuard.C76_no_timer_forgotten"
   ],
   "note": "The rules of boost.asio (what counts as work, when run returns, the order of a strand) are taken as assumptions and stated in the model. The last sentence of the statement is C76_unguarded_counterexample. Nobody calls restart or stop of the io_context."
  },
  {
   "property": "C77",
   "status": "proved",
   "theorems": [
    "Verif.Naming.C77_codes",
    "Verif.Naming.C77_made_codes",
    "Verif.Naming.C77_words",
    "Verif.Naming.C77_identity",
    "Verif.Naming.C77_never_empty",
    "Verif.Naming.C77_tell_actors",
    "Verif.Naming.C77_error",
    "Verif.Naming.C77_request",
    "Verif.Naming.C77_told",
    "Verif.Naming.C77_who",
    "Verif.Naming.C77_odd_name_counterexample",
    "Verif.Naming.C77_same_name_counterexample"
   ],
   "note": "How addresses are written is a parameter with the hypothesis Plain, which Cases.lean proves of hexadecimal numbers. That names contain no arrow, and that addresses are part of the identity, is necessary: C77_odd_name_counterexample, C77_same_name_counterexample."
  },
  {
   "property": "C78",
   "status": "partial",
   "theorems": [
    "Verif.Drain.C78_no_fault_partial",
    "Verif.Drain.C78_unrouted",
    "Verif.Drain.C78_empties_partial",
    "Verif.Drain.C78_context_empties_partial",
    "Verif.Drain.C78_pure_virtual_counterexample",
    "Verif.Drain.C78_dangling_counterexample",
    "Verif.Drain.C78_mutex_counterexample",
    "Verif.Drain.C78_last",
    "Verif.Drain.C78_nothing_left",
    "Verif.Drain.C78_destroyed_once",
    "Verif.Drain.C78_not_leaked",
    "Verif.Drain.C78_one_hop",
    "Verif.Drain.C78_sent_on",
    "Verif.Drain.C78_lost_only"
   ],
   "note": "The last sentence of the statement is false: C78_pure_virtual_counterexample, C78_dangling_counterexample, C78_mutex_counterexample. C78_no_fault_partial proves it if no wrapped call of a message with a second destination is left for actors of the supervisor when its destructor begins, C78_unrouted if there are no messages with a second destination. The rest of the statement is proved without conditions, except that the end of the destructors (C78_empties_partial, C78_context_empties_partial) has the same condition."
  },
  {
   "property": "C79",
   "status": "partial",
   "theorems": [
    "Verif.Farewell.C79_early_counterexample",
    "Verif.Farewell.C79_left_over_counterexample",
    "Verif.Farewell.C79_unanswered_counterexample",
    "Verif.Farewell.C79_no_fault",
    "Verif.Farewell.C79_books",
    "Verif.Farewell.C79_while_waiting",
    "Verif.Farewell.C79_before_shutdown",
    "Verif.Farewell.C79_agreed",
    "Verif.Farewell.C79_not_awaited",
    "Verif.Farewell.C79_for_ever",
    "Verif.Farewell.C79_children_called_partial",
    "Verif.Farewell.C79_nothing_left_partial",
    "Verif.Farewell.C79_passed",
    "Verif.Farewell.C79_called",
    "Verif.Farewell.C79_emptied"
   ],
   "note": "The last two sentences of the statement are false: C79_early_counterexample (the plugin is deactivated when the last foreign subscriber leaves, although there are children), C79_left_over_counterexample, C79_unanswered_counterexample. C79_children_called_partial and C79_nothing_left_partial prove them when the last subscriber does not leave during the shutdown, and when no leave was missed. The rest is proved without conditions. C79_passed: a message is passed once to exactly those whose subscriptions are confirmed and not removed; C79_while_waiting: until the plugins are deactivated or the last foreign subscriber leaves during the shutdown, no request, leave or call is missed; C79_emptied: the latter happens exactly when everything confirmed is removed; C79_called: until the latter, a call for a child leads to one call of its handler, if the child is there."
  },
  {
   "property": "C80",
   "status": "partial",
   "theorems": [
    "Verif.InitCancel.C80_apart_counterexample",
    "Verif.InitCancel.C80_assertion_counterexample",
    "Verif.InitCancel.C80_only_this",
    "Verif.InitCancel.C80_together",
    "Verif.InitCancel.C80_others_stay",
    "Verif.InitCancel.C80_taken_back",
    "Verif.InitCancel.C80_self_noop",
    "Verif.InitCancel.C80_apart_early",
    "Verif.InitCancel.C80_no_fault",
    "Verif.InitCancel.C80_accounted",
    "Verif.InitCancel.C80_request_answered",
    "Verif.InitCancel.C80_ended"
   ],
   "note": "The last sentence of the statement is false if the parent of the supervisor is in another locality: C80_apart_counterexample (a request of another actor is discarded and never answered), C80_assertion_counterexample. For everything else the claim is proved: C80_only_this, C80_together, C80_others_stay, C80_taken_back, C80_self_noop, C80_no_fault, C80_accounted, C80_request_answered, C80_ended; C80_apart_early tells when the supervisor in another locality does no harm."
  },
  {
   "property": "C81",
   "status": "partial",
   "theorems": [
    "Verif.TextMaker.C81_race_counterexample",
    "Verif.TextMaker.C81_root_race_counterexample",
    "Verif.TextMaker.C81_once",
    "Verif.TextMaker.C81_same",
    "Verif.TextMaker.C81_no_fault",
    "Verif.TextMaker.C81_gets",
    "Verif.TextMaker.C81_library",
    "Verif.TextMaker.C81_one_root",
    "Verif.TextMaker.C81_first_root"
   ],
   "note": "The last sentence of the statement is false: C81_race_counterexample (two calls of the user before there is a root supervisor; the second destroys what the first has got), C81_root_race_counterexample. The rest is proved when a call of the user begins before everything else or after somebody has got the stringifier (C81_once, C81_same, C81_no_fault, C81_gets) and without conditions if only the library calls the function (C81_library, C81_one_root, C81_first_root)."
  },
  {
   "property": "C82",
   "status": "partial",
   "theorems": [
    "Verif.Across.C82_via_order_counterexample",
    "Verif.Across.C82_arrives",
    "Verif.Across.C82_asked",
    "Verif.Across.C82_answered",
    "Verif.Across.C82_seen",
    "Verif.Across.C82_sent_on",
    "Verif.Across.C82_taken",
    "Verif.Across.C82_at_home",
    "Verif.Across.C82_right_one",
    "Verif.Across.C82_once",
    "Verif.Across.C82_numbers",
    "Verif.Across.C82_accounted",
    "Verif.Across.C82_prompt",
    "Verif.Across.C82_late",
    "Verif.Across.C82_order_partial"
   ],
   "note": "The last sentence of the statement is false for responses that are asked for in another locality (request_via): C82_via_order_counterexample. C82_order_partial proves it for each locality whose responses are asked for in it, whatever is asked for in other localities. The rest is proved without conditions: C82_right_one, C82_once, C82_numbers, C82_accounted, C82_prompt, C82_late, C82_seen, C82_sent_on, C82_taken, C82_at_home; C82_arrives, C82_asked and C82_answered are about unending executions in which every event loop goes on."
  }
 ]
}