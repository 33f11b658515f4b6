{
 "claims": [
  {
   "property": "C01",
   "status": "proved",
   "theorems": [
    "Braid.Mpsc.C01_fifo",
    "Braid.Mpsc.C01_exactly_once"
   ],
   "note": "All interleavings of any number of producers with one consumer."
  },
  {
   "property": "C02",
   "status": "proved",
   "theorems": [
    "Braid.Mpsc.C02_no_loss"
   ],
   "note": ""
  },
  {
   "property": "C03",
   "status": "proved",
   "theorems": [
    "Braid.Mpsc.C03_no_lost_wakeup",
    "Braid.Mpsc.C03_loop_drains",
    "Braid.Mpsc.C03_comes_to_rest",
    "Braid.Mpsc.C03_rest_drained"
   ],
   "note": "Every schedule of producers and consumer loop comes to rest within 14 steps per Push, and at rest everything was popped. The count is an integer here; C134 shows that the int32 of the code does the same while fewer than 2^31 values wait."
  },
  {
   "property": "C04",
   "status": "partial",
   "theorems": [
    "Braid.Mpsc.C04_nil_means_drained_refuted",
    "Braid.Mpsc.C04_nil_means_drained_partial",
    "Braid.Mpsc.C04_blame"
   ],
   "note": "The code violates the full statement (refuted); partial: a completed push can only be missed while an earlier push is in progress: one push, that of the next value, which is one step away from being popped (C04_blame)."
  },
  {
   "property": "C05",
   "status": "proved",
   "theorems": [
    "Braid.Unbounded.C05_fifo",
    "Braid.Unbounded.C05_no_loss"
   ],
   "note": ""
  },
  {
   "property": "C06",
   "status": "proved",
   "theorems": [
    "Braid.Unbounded.C06_no_stall",
    "Braid.Unbounded.C06_receivable",
    "Braid.Unbounded.C06_reader_drains"
   ],
   "note": ""
  },
  {
   "property": "C07",
   "status": "proved",
   "theorems": [
    "Braid.Future.C07_started_with_first_value",
    "Braid.Future.C07_at_most_once",
    "Braid.Future.C07_all_started",
    "Braid.Future.C07_no_stuck",
    "Braid.Future.C07_observed_after_complete",
    "Braid.Future.C07_comes_to_rest",
    "Braid.Future.C07_rest_started",
    "Braid.Future.C07_completed_stays"
   ],
   "note": "Every schedule comes to rest within 13 steps per outside call, and at rest every callback of a completed future has been started once and has finished."
  },
  {
   "property": "C08",
   "status": "partial",
   "theorems": [
    "Braid.Future.C08_late_never_completed",
    "Braid.Future.C08_chain_refuted",
    "Braid.Future.C08_then_completes_partial",
    "Braid.Future.C08_chain_partial",
    "Braid.Future.C08_exact",
    "Braid.Future.C08_chain_exact"
   ],
   "note": "The code violates the full statement: Then on a completed future returns a future that is never completed (refuted). Partial: holds for Then calls made before the completion. C08_chain_exact: in chains of any length a callback is started iff the first future was completed and all calls before it in the chain were made before the completion."
  },
  {
   "property": "C09",
   "status": "proved",
   "theorems": [
    "Braid.Chain.C09_execute_outcome",
    "Braid.Chain.C09_nil_iff",
    "Braid.Chain.C09_first_error"
   ],
   "note": ""
  },
  {
   "property": "C44",
   "status": "proved",
   "theorems": [
    "Braid.Wire.C44_message_roundtrip",
    "Braid.Wire.C44_header_roundtrip",
    "Braid.Wire.C44_req_roundtrip",
    "Braid.Wire.C44_res_roundtrip",
    "Braid.Wire.C44_encoding"
   ],
   "note": "Hypothesis: the encoding is shorter than 2^63 bytes (every Go slice is). nil and empty byte slices are identified."
  },
  {
   "property": "C45",
   "status": "proved",
   "theorems": [
    "Braid.Wire.C45_size_exact",
    "Braid.Wire.C45_exact_fill"
   ],
   "note": ""
  },
  {
   "property": "C46",
   "status": "proved",
   "theorems": [
    "Braid.Wire.C46_decode_total"
   ],
   "note": "Inputs of fewer than 2^63 bytes, the maximum length of a Go slice. Memory use is not modelled."
  },
  {
   "property": "C47",
   "status": "proved",
   "theorems": [
    "Braid.Wire.C47_header_fields",
    "Braid.Wire.C47_unknown_ignored",
    "Braid.Wire.C47_last_wins",
    "Braid.Wire.C47_message_fields",
    "Braid.Wire.C47_route_fields"
   ],
   "note": "Embedded headers that occur twice are merged field by field, as the format prescribes."
  },
  {
   "property": "C48",
   "status": "partial",
   "theorems": [
    "Braid.Msg.C48_req_merge_partial",
    "Braid.Msg.C48_res_merge_partial",
    "Braid.Msg.C48_undecodable",
    "Braid.Msg.C48_map",
    "Braid.Msg.C48_custom_merge_refuted",
    "Braid.Msg.C48_panic_exact"
   ],
   "note": "The code violates the full statement: contents that decode to a nil map (JSON null, written by WithReqCustomFieldsMap(nil)) make it panic (refuted). Partial: everything else, for serializers that are lossless up to a normal form of the values, as JSON is."
  },
  {
   "property": "C49",
   "status": "partial",
   "theorems": [
    "Braid.Msg.C49_custom_int_partial",
    "Braid.Msg.C49_small_representable",
    "Braid.Msg.C49_wrong_value_refuted",
    "Braid.Msg.C49_outside",
    "Braid.Msg.C49_exact"
   ],
   "note": "The code violates the full statement (refuted): int8 and uint8 always read as 0, and integers of more than 53 significant bits come back rounded. Partial: every other type and every value of at most 53 significant bits."
  },
  {
   "property": "C50",
   "status": "partial",
   "theorems": [
    "Braid.Msg.C50_header_copied_partial",
    "Braid.Msg.C50_header_copied_refuted",
    "Braid.Msg.C50_exact"
   ],
   "note": "The code violates the full statement: the Timestamp is not copied (refuted). Partial: all other fields."
  },
  {
   "property": "C32",
   "status": "proved",
   "theorems": [
    "Braid.AddressBook.C32_lookup_exact",
    "Braid.AddressBook.C32_results",
    "Braid.AddressBook.C32_registered_is_found",
    "Braid.AddressBook.C32_unregistered_is_gone"
   ],
   "note": "Sequences of whole operations answered by Redis. The type field is left empty by the local shortcut of GetByID, so only id, node and address are claimed for it. Lookups on nodes that have called Clear are excepted (see C34)."
  },
  {
   "property": "C33",
   "status": "partial",
   "theorems": [
    "Braid.AddressBook.C33_load_is_sum_partial",
    "Braid.AddressBook.C33_load_is_sum_refuted",
    "Braid.AddressBook.C33_register",
    "Braid.AddressBook.C33_unregister",
    "Braid.AddressBook.C33_bounded_partial",
    "Braid.AddressBook.C33_overflow_refuted"
   ],
   "note": "Violated if Unregister is given another weight than Register, and if a sum does not fit into 64 bits (both refuted). Partial: equal weights, and sums that fit. Without any assumption: each operation changes the loads by exactly its weight."
  },
  {
   "property": "C34",
   "status": "partial",
   "theorems": [
    "Braid.AddressBook.C34_clear_partial",
    "Braid.AddressBook.C34_local_lookup_refuted",
    "Braid.AddressBook.C34_local_exact",
    "Braid.AddressBook.C34_for_ever_partial"
   ],
   "note": "Violated for lookups by id on the cleared node itself, whose local map is not cleared (refuted): they return, for ever, exactly what was registered there when Clear was called (C34_local_exact). Partial: everything else, at any time after Clear."
  },
  {
   "property": "C35",
   "status": "partial",
   "theorems": [
    "Braid.AddressBook.C35_wildcard_least_partial",
    "Braid.AddressBook.C35_least_over_all",
    "Braid.AddressBook.C35_wildcard_succeeds",
    "Braid.AddressBook.C35_max_load_refuted",
    "Braid.AddressBook.C35_exact"
   ],
   "note": "Violated only for a load equal to the largest int, which is taken for 'none found' (refuted). Partial: everything else."
  },
  {
   "property": "C36",
   "status": "partial",
   "theorems": [
    "Braid.AddressBook.C36_least_loaded_partial",
    "Braid.AddressBook.C36_succeeds",
    "Braid.AddressBook.C36_registered",
    "Braid.AddressBook.C36_two_orders_refuted",
    "Braid.AddressBook.C36_any_node_refuted",
    "Braid.AddressBook.C36_max_load_refuted",
    "Braid.AddressBook.C36_place_exact",
    "Braid.AddressBook.C36_exact"
   ],
   "note": "Violated when Go iterates over the map in two different orders (refuted): then exactly the registered nodes may be returned, whatever their loads. Partial: equal orders; with any orders the result is a registered node."
  },
  {
   "property": "C37",
   "status": "partial",
   "theorems": [
    "Braid.AddressBook.C37_success_complete_partial",
    "Braid.AddressBook.C37_all_or_nothing_refuted",
    "Braid.AddressBook.C37_fault_reported",
    "Braid.AddressBook.C37_unregister_complete_partial",
    "Braid.AddressBook.C37_unregister_stuck_refuted",
    "Braid.AddressBook.C37_retry_exact",
    "Braid.AddressBook.C37_retry_refuted"
   ],
   "note": "Violated when the connection breaks inside the pipeline of Register or of Unregister (refuted); the latter cannot be tried again. Partial: success means all records, refusal means none, and a broken connection is always reported. Trying Register again repairs everything but the loads: the weight is counted once more for every call that had increased the counters (C37_retry_exact, C37_retry_refuted)."
  },
  {
   "property": "C38",
   "status": "partial",
   "theorems": [
    "Braid.AddressBook.C38_unique_per_node_partial",
    "Braid.AddressBook.C38_distinct_ids_partial",
    "Braid.AddressBook.C38_two_nodes_refuted",
    "Braid.AddressBook.C38_any_number_refuted",
    "Braid.AddressBook.C38_wrong_one_refuted"
   ],
   "note": "Violated: any number of nodes can register the same id, and an Unregister on any node then takes the last of them off the list, but the weight off the caller (refuted). Partial: uniqueness per node, and for nodes that use distinct ids."
  },
  {
   "property": "C42",
   "status": "proved",
   "theorems": [
    "Braid.DisMutex.C42_exclusion",
    "Braid.DisMutex.C42_lease_in_call",
    "Braid.DisMutex.C42_free_lock_taken"
   ],
   "note": "Assumes that the random values are new and cannot be guessed. The lease is counted from the moment Redis sets the key."
  },
  {
   "property": "C43",
   "status": "proved",
   "theorems": [
    "Braid.DisMutex.C43_unlock_own",
    "Braid.DisMutex.C43_empty_value",
    "Braid.DisMutex.C43_lease_kept"
   ],
   "note": "If the reply of Redis is lost Unlock returns false although it freed the key; the theorem says so."
  },
  {
   "property": "C10",
   "status": "proved",
   "theorems": [
    "Braid.Actor.C10_one_at_a_time"
   ],
   "note": "Also covers the actions of the reentry queue."
  },
  {
   "property": "C11",
   "status": "proved",
   "theorems": [
    "Braid.Actor.C11_in_order",
    "Braid.Actor.C11_at_most_once"
   ],
   "note": "On top of the operation-by-operation model of the queue (C01)."
  },
  {
   "property": "C12",
   "status": "proved",
   "theorems": [
    "Braid.Actor.C12_group_count",
    "Braid.Actor.C12_never_negative",
    "Braid.Actor.C12_released_once"
   ],
   "note": "The count is what this actor contributes to the group. A message counts as accepted when Push has returned."
  },
  {
   "property": "C13",
   "status": "partial",
   "theorems": [
    "Braid.Actor.C13_exit_drains_refuted",
    "Braid.Actor.C13_exit_drains_partial",
    "Braid.Actor.C13_idle_loop_partial",
    "Braid.Actor.C13_hidden_refuted",
    "Braid.Actor.C13_second_exit_crashes"
   ],
   "note": "Violated: Exit can return while the handler of the last message is running (refuted); a message whose delivery has returned before Exit is never handled if it is behind a delivery still under way (refuted). Partial: everything else accepted before the call, unless a delivery that began before its own returned is still under way when Exit is called."
  },
  {
   "property": "C14",
   "status": "partial",
   "theorems": [
    "Braid.Actor.C14_accepted_is_handled_refuted",
    "Braid.Actor.C14_accepted_is_handled_partial",
    "Braid.Actor.C14_closed_refuses",
    "Braid.Actor.C14_refused_unchanged",
    "Braid.Actor.C14_comes_to_rest",
    "Braid.Actor.C14_rest_handled"
   ],
   "note": "Violated: a delivery that overlaps with the end of the loop is accepted and never handled (refuted). Partial: otherwise the loop can go on to handle everything accepted; and as long as Exit is not called, every schedule is finite (at most 19 steps per input) and when nothing can go on everything accepted was handled and every caller released."
  },
  {
   "property": "C15",
   "status": "partial",
   "theorems": [
    "Braid.Reenter.C15_callbacks_on_actor_refuted",
    "Braid.Reenter.C15_completion_on_actor_partial",
    "Braid.Reenter.C15_callback_after_completion"
   ],
   "note": "Violated: the callbacks run in goroutines of their own (refuted). Partial: the completion itself happens on the actor loop, except for the error of an ended context."
  },
  {
   "property": "C16",
   "status": "proved",
   "theorems": [
    "Braid.Reenter.C16_at_most_once",
    "Braid.Reenter.C16_value",
    "Braid.Reenter.C16_completed_at_rest",
    "Braid.Reenter.C16_comes_to_rest",
    "Braid.Reenter.C16_callback_started",
    "Braid.Reenter.C16_ended_loop_loses",
    "Braid.Reenter.C16_only_attached"
   ],
   "note": "Completion is stated for the moments when the goroutines have come to rest, which they do after a bounded number of steps. The condition that the actor keeps running is needed (C16_ended_loop_loses)."
  },
  {
   "property": "C17",
   "status": "partial",
   "theorems": [
    "Braid.Timer.C17_zero_interval_refuted",
    "Braid.Timer.C17_zero_due_refuted",
    "Braid.Timer.C17_as_documented_partial",
    "Braid.Timer.C17_zero_due_partial",
    "Braid.Timer.C17_never_early",
    "Braid.Timer.C17_no_crash_partial"
   ],
   "note": "Violated: interval 0 crashes the process, due time 0 gives no tick at once (refuted). Partial: positive arguments up to 292 years, exact on machines that are fast enough and never early on any."
  },
  {
   "property": "C18",
   "status": "partial",
   "theorems": [
    "Braid.Timer.C18_queued_tick_refuted",
    "Braid.Timer.C18_nil_ticker_refuted",
    "Braid.Timer.C18_bounded_partial",
    "Braid.Timer.C18_no_crash_partial",
    "Braid.Timer.C18_answered",
    "Braid.Timer.C18_never_waits"
   ],
   "note": "Violated: ticks already queued still run, and cancelling during the due time crashes (refuted). Partial: no more callbacks than ticks on their way when the timer was stopped."
  },
  {
   "property": "C19",
   "status": "partial",
   "theorems": [
    "Braid.Timer.C19_stop",
    "Braid.Timer.C19_no_crash",
    "Braid.Timer.C19_reset_refuted",
    "Braid.Timer.C19_reset_partial",
    "Braid.Timer.C19_ticker_agrees",
    "Braid.Timer.C19_reset_exact"
   ],
   "note": "Violated: Reset of a stopped timer with its own interval returns true and leaves it stopped (refuted). Partial: everything else."
  },
  {
   "property": "C20",
   "status": "partial",
   "theorems": [
    "Braid.CallTree.C20_timeout_refuted",
    "Braid.CallTree.C20_nested_expiry_refuted",
    "Braid.CallTree.C20_tree_finished_partial",
    "Braid.CallTree.C20_no_error_partial",
    "Braid.CallTree.C20_branch_partial",
    "Braid.CallTree.C20_blame",
    "Braid.CallTree.C20_blame_no_error"
   ],
   "note": "Violated: a root call whose waiter gives up after callTimeout returns nil with its message unhandled, and a nested call whose context ended leaves its message behind. Proved for all call trees (any depth, actors, schedule, remote hops) in which nothing timed out, expired or failed remotely; and for the part of the tree sharing the wait group whenever mw.Err is nil at the return. C20_blame: whatever is unhandled lies below a call that was cut short or did not wait, or the root waiter gave up."
  },
  {
   "property": "C21",
   "status": "partial",
   "theorems": [
    "Braid.CallTree.C21_nested_refuted",
    "Braid.CallTree.C21_own_group_never_waits",
    "Braid.CallTree.C21_remote_refuted",
    "Braid.CallTree.C21_waits_partial",
    "Braid.CallTree.C21_fresh_group_is_root"
   ],
   "note": "Violated: a call inside a handler with a wrapper built from the handler's context always returns before its target has handled the message; a remote call returns nil when the target refused. Proved: a nested call with a fresh wait group is a root call and returns nil only after its target handled the message, unless its waiter gave up."
  },
  {
   "property": "C22",
   "status": "partial",
   "theorems": [
    "Braid.System.C22_origin",
    "Braid.System.C22_prev_partial",
    "Braid.System.C22_remote_prev_refuted",
    "Braid.System.C22_never_accepted",
    "Braid.System.C22_prev_exact"
   ],
   "note": "Violated: on a remote hop the acceptor overwrites the previous type with GrpcAcceptor (refuted). Proved: origin along chains of any length, previous type for hops within a node, and that the first actor refuses the message in every state of the actor model."
  },
  {
   "property": "C23",
   "status": "partial",
   "theorems": [
    "Braid.System.C23_empty_target",
    "Braid.System.C23_local_id_partial",
    "Braid.System.C23_local_first",
    "Braid.System.C23_otherwise_id",
    "Braid.System.C23_otherwise_local_first",
    "Braid.System.C23_symbol_id_refuted",
    "Braid.System.C23_ids_exact"
   ],
   "note": "Proved for all targets but the ids ? and ~, which Register accepts: such an actor cannot be addressed by its id (C23_symbol_id_refuted)."
  },
  {
   "property": "C24",
   "status": "partial",
   "theorems": [
    "Braid.System.C24_by_id_partial",
    "Braid.System.C24_no_effect_partial",
    "Braid.System.C24_by_id_history_partial",
    "Braid.System.C24_symbol_id",
    "Braid.System.C24_symbol_id_refuted"
   ],
   "note": "Exact characterisation of where a call by id ends and after how many hops, in every consistent cluster; C24_by_id_history_partial derives consistency from legal histories of the address book model. Violated by the ids ? and ~, which Register accepts and which are taken for the symbols."
  },
  {
   "property": "C25",
   "status": "proved",
   "theorems": [
    "Braid.System.C25_symbol_type",
    "Braid.System.C25_local_first_hops",
    "Braid.System.C25_wildcard_hops_unbounded",
    "Braid.System.C25_wildcard_one_hop",
    "Braid.System.C25_wildcard_ends",
    "Braid.System.C25_wildcard_sample_unbounded"
   ],
   "note": "Also: ~ needs at most one hop, ? has no bound on the number of hops when loads are equal, and takes at most one if one node is strictly the lightest and there are at most ten actors of the type; with more there is none either."
  },
  {
   "property": "C26",
   "status": "partial",
   "theorems": [
    "Braid.System.C26_same_address_refuted",
    "Braid.System.C26_moved_actor_refuted",
    "Braid.System.C26_idmap_refuted",
    "Braid.System.C26_cleanup_partial",
    "Braid.System.C26_cleanup_history_partial",
    "Braid.System.C26_removed_exact",
    "Braid.System.C26_removes_one"
   ],
   "note": "Violated for nodes with the same ip and port (port 0: no acceptor), for actors that moved after a crash, and for an id registered by two nodes (refuted). Proved for address books that are coherent as far as this node relies on them, in particular all that legal histories build when node addresses are distinct. C26_removed_exact says for every state which record is removed."
  },
  {
   "property": "C27",
   "status": "partial",
   "theorems": [
    "Braid.System.C27_swallowed_refuted",
    "Braid.System.C27_swallowed_always",
    "Braid.System.C27_remote_failure_partial"
   ],
   "note": "Violated: the acceptor logs and drops the error of Call (refuted). Partial: transport failures and remote panics are reported."
  },
  {
   "property": "C28",
   "status": "partial",
   "theorems": [
    "Braid.System.C28_refuted",
    "Braid.System.C28_not_implemented"
   ],
   "note": "Violated: neither symbol is implemented; both are taken for actor ids and give an error (refuted, and for every consistent cluster)."
  },
  {
   "property": "C29",
   "status": "partial",
   "theorems": [
    "Braid.Register.C29_duplicate",
    "Braid.Register.C29_duplicate_only",
    "Braid.Register.C29_concurrent_refuted",
    "Braid.Register.C29_one_per_id_partial",
    "Braid.Register.C29_leak_refuted"
   ],
   "note": "Violated by two goroutines registering one id on a node at the same time (refuted; one actor is orphaned); with at most two operations at a time, orphans collect without bound although everything is unregistered again (C29_leak_refuted). Proved for all interleavings in which operations on the same id of a node do not overlap; the duplicate clause holds in every state."
  },
  {
   "property": "C30",
   "status": "partial",
   "theorems": [
    "Braid.Register.C30_concurrent_refuted",
    "Braid.Register.C30_cleanup_refuted",
    "Braid.Register.C30_limit_partial",
    "Braid.Register.C30_bound",
    "Braid.Register.C30_live_partial",
    "Braid.Register.C30_exceeded_refuted"
   ],
   "note": "Violated by concurrent registrations (refuted), and as to live actors after a cleanup of a live actor's record. Proved for the number of records in all interleavings in which Register calls of the type do not overlap. In general, if at most K of them overlap, there are at most limit + K - 1 records (C30_bound), and as many live actors if calls for one id do not overlap (C30_live_partial); for every limit and K the bound is reached (C30_exceeded_refuted)."
  },
  {
   "property": "C31",
   "status": "partial",
   "theorems": [
    "Braid.Register.C31_no_limit_refuted",
    "Braid.Register.C31_concurrent_refuted",
    "Braid.Register.C31_node_unique_partial",
    "Braid.Register.C31_bound",
    "Braid.Register.C31_tight_refuted"
   ],
   "note": "Violated if the global limit is 0, where the check is skipped, and by concurrent registrations (refuted). Proved for a limit other than 0 and calls that do not overlap; if at most K calls of the type overlap on the node, it has at most K live actors (C31_bound), and K are reached for every K (C31_tight_refuted)."
  },
  {
   "property": "C39",
   "status": "partial",
   "theorems": [
    "Braid.PubSub.C39_in_order_partial",
    "Braid.PubSub.C39_one_subscriber_partial",
    "Braid.PubSub.C39_tags",
    "Braid.PubSub.C39_reopened_refuted",
    "Braid.PubSub.C39_published",
    "Braid.PubSub.C39_times",
    "Braid.PubSub.C39_unbounded_refuted",
    "Braid.PubSub.C39_order_refuted"
   ],
   "note": "Violated when a closed channel is subscribed again from the beginning before a delivered message is deleted (refuted). Proved in all interleavings, with crashes and deletions of the stream, as long as a channel is created from the beginning only the first time. In all runs nothing is delivered that was not published, and C39_times says how often a message can be delivered; the bound is reached."
  },
  {
   "property": "C40",
   "status": "partial",
   "theorems": [
    "Braid.PubSub.C40_other_channel_refuted",
    "Braid.PubSub.C40_crash_refuted",
    "Braid.PubSub.C40_delivered_partial",
    "Braid.PubSub.C40_somewhere_partial"
   ],
   "note": "Violated: the handler of one channel deletes the message from the stream, so other channels lose it for ever; and messages read by a subscriber that crashed are not given to another one (both refuted). Proved for topics with one channel without crashes: message moves are bounded and when none is possible all due messages are delivered. For any number of channels (C40_somewhere_partial): a message that a steady channel does not get was delivered on another one."
  },
  {
   "property": "C41",
   "status": "partial",
   "theorems": [
    "Braid.PubSub.C41_unknown_topic_refuted",
    "Braid.PubSub.C41_errors_partial",
    "Braid.PubSub.C41_exact"
   ],
   "note": "Violated: Pub to a topic this process has not subscribed to panics (proved for every such topic and event). Errors are reported for empty events, and for Redis failures on subscribed topics."
  },
  {
   "property": "C51",
   "status": "proved",
   "theorems": [
    "Braid.Grpc.C51_bounded",
    "Braid.Grpc.C51_discipline",
    "Braid.Grpc.C51_no_leak",
    "Braid.Grpc.C51_gives_back"
   ],
   "note": "All interleavings, all limits. A panic inside Invoke is not modelled."
  },
  {
   "property": "C52",
   "status": "partial",
   "theorems": [
    "Braid.Grpc.C52_refuted",
    "Braid.Grpc.C52_never_dialed",
    "Braid.Grpc.C52_after_call_partial",
    "Braid.Grpc.C52_after_use_partial"
   ],
   "note": "Violated: Send to a node that no Call of this process has dialed always fails with no connection (refuted for every address). Proved once something was sent to the address."
  },
  {
   "property": "C53",
   "status": "partial",
   "theorems": [
    "Braid.Grpc.C53_concurrent_refuted",
    "Braid.Grpc.C53_one_connection_partial",
    "Braid.Grpc.C53_right_address",
    "Braid.Grpc.C53_reused",
    "Braid.Grpc.C53_bound",
    "Braid.Grpc.C53_tight_refuted"
   ],
   "note": "Violated by concurrent CallWaits to a new address, which open a connection each (refuted). Proved if CallWaits to the address do not overlap; with at most k overlapping ones at most k connections are ever opened, and k are reached for every k; connections always go to the right address."
  },
  {
   "property": "C54",
   "status": "partial",
   "theorems": [
    "Braid.Cron.C54_denotes_partial",
    "Braid.Cron.C54_exact",
    "Braid.Cron.C54_wrap_step_refuted",
    "Braid.Cron.C54_overflow_refuted"
   ],
   "note": "Proved for every way of writing every well-formed field of every kind with a step up to 2^63 - 60, unless a range wraps around with a step other than 1, where the steps start again at the smallest value (refuted; C54_exact says exactly what such fields match). For larger steps the addition overflows (refuted)."
  },
  {
   "property": "C55",
   "status": "partial",
   "theorems": [
    "Braid.Cron.C55_zero_step_refuted",
    "Braid.Cron.C55_zero_range_refuted",
    "Braid.Cron.C55_no_error_refuted",
    "Braid.Cron.C55_terminates_partial",
    "Braid.Cron.C55_terminates_iff",
    "Braid.Cron.C55_bad_step"
   ],
   "note": "Violated: a step of 0 makes the parser loop for ever, and ill-formed items are ignored without an error (both refuted). C55_terminates_iff says for every string whether the parser ends: unless the step is 0 or -2^63 and something is to be repeated. For steps of at least 1 that do not overflow every loop ends within 100 steps."
  },
  {
   "property": "C56",
   "status": "partial",
   "theorems": [
    "Braid.Errcode.C56_by_number",
    "Braid.Errcode.C56_equivalence",
    "Braid.Errcode.C56_cause",
    "Braid.Errcode.C56_equalError",
    "Braid.Errcode.C56_other_not_ok_partial",
    "Braid.Errcode.C56_empty_text_refuted",
    "Braid.Errcode.C56_empty_text_only",
    "Braid.Errcode.C56_others_unknow",
    "Braid.Errcode.C56_new"
   ],
   "note": "Violated only by errors with an empty text, which are equal to OK (refuted; shown to be the only ones). The rest is proved for all codes and errors."
  },
  {
   "property": "C57",
   "status": "partial",
   "theorems": [
    "Braid.Versions.C57_next_partial",
    "Braid.Versions.C57_order_refuted",
    "Braid.Versions.C57_skips_refuted",
    "Braid.Versions.C57_next_iff",
    "Braid.Versions.C57_newer",
    "Braid.Versions.C57_iterate",
    "Braid.Versions.C57_iterate_all_partial",
    "Braid.Versions.C57_strategy"
   ],
   "note": "Violated if versions are not registered in ascending order (refuted). Proved for ascending registration, with the exact condition on the order (C57_next_iff); that iterating stops and ascends is proved for every order."
  },
  {
   "property": "C58",
   "status": "partial",
   "theorems": [
    "Braid.Token.C58_round_trip",
    "Braid.Token.C58_round_trip_partial",
    "Braid.Token.C58_not_utf8_refuted",
    "Braid.Token.C58_authentic",
    "Braid.Token.C58_complete",
    "Braid.Token.C58_forged_refuted"
   ],
   "note": "The libraries (base64, JSON, HMAC) are parameters with stated contracts. Round trip proved for ids that JSON keeps (UTF-8), refuted for the others; authenticity proved for all byte strings and any library. The key is a constant of the source, and HS384 and HS512 are accepted too: whoever knows it makes tokens for any id (refuted)."
  },
  {
   "property": "C59",
   "status": "partial",
   "theorems": [
    "Braid.Reporter.C59_accounts",
    "Braid.Reporter.C59_delivery",
    "Braid.Reporter.C59_drop_only_full",
    "Braid.Reporter.C59_close_delivers",
    "Braid.Reporter.C59_close_once",
    "Braid.Reporter.C59_close_returns",
    "Braid.Reporter.C59_sender_closed",
    "Braid.Reporter.C59_flush",
    "Braid.Reporter.C59_bad_rate_refuted"
   ],
   "note": "Proved in all interleavings for sampling rates between 0 and 1; for other rates the first span crashes the process (refuted)."
  },
  {
   "property": "C60",
   "status": "partial",
   "theorems": [
    "Braid.Builder.C60_shared_refuted",
    "Braid.Builder.C60_shared",
    "Braid.Builder.C60_private_partial",
    "Braid.Builder.C60_other_type",
    "Braid.Builder.C60_id_private",
    "Braid.Builder.C60_type"
   ],
   "note": "Violated: builders of a type share one map of options (refuted for every type, key and value). Proved as long as no other builder of the type is given the option, and for ids."
  },
  {
   "property": "C61",
   "status": "partial",
   "theorems": [
    "Braid.TickTask.C61_bound",
    "Braid.TickTask.C61_one_at_a_time_partial",
    "Braid.TickTask.C61_restarts",
    "Braid.TickTask.C61_disciplined_partial",
    "Braid.TickTask.C61_panic_refuted",
    "Braid.TickTask.C61_restart_refuted"
   ],
   "note": "Violated: a panic starts a second goroutine while the first goes on, and a restart during a handler call runs two (refuted). Proved for all interleavings: a start of a running task is without effect, calls running at once are at most one more than stops and panics; so one at a time for a task that was not stopped and has not panicked, however often it is started; and for tasks that are stopped and restarted by callers that call one at a time, stop only once the ticker is made and restart only once the goroutine waits."
  },
  {
   "property": "C62",
   "status": "partial",
   "theorems": [
    "Braid.TickTask.C62_at_most_two_partial",
    "Braid.TickTask.C62_no_crash_partial",
    "Braid.TickTask.C62_disciplined_partial",
    "Braid.TickTask.C62_comes_to_rest",
    "Braid.TickTask.C62_delay_refuted",
    "Braid.TickTask.C62_early_refuted",
    "Braid.TickTask.C62_two_refuted",
    "Braid.TickTask.C62_unstoppable_refuted",
    "Braid.TickTask.C62_silent_refuted"
   ],
   "note": "Violated: stopping during the delay or before the ticker is made crashes; quick start/stop/start/stop leaves a task nothing can stop (refuted, for any number of later calls). Proved: at most two calls begin after the stop of a task started once, and no crash once the handler was called; with disciplined callers no stop crashes, at most two calls begin between a stop and the next start, and a stopped task comes to rest after at most nine steps."
  },
  {
   "property": "C63",
   "status": "partial",
   "theorems": [
    "Braid.TickRound.C63_order",
    "Braid.TickRound.C63_no_service",
    "Braid.TickRound.C63_panic_partial",
    "Braid.TickRound.C63_crash_iff",
    "Braid.TickRound.C63_no_service_refuted",
    "Braid.TickRound.C63_exception_refuted",
    "Braid.TickRound.C63_isEnd_stays"
   ],
   "note": "Violated: a panic ends the process if the task has no service or ExceptionHandler panics (refuted; shown to be the only cases). Order proved for all hooks, handlers and outcomes. IsEnd is never reset."
  },
  {
   "property": "C64",
   "status": "partial",
   "theorems": [
    "Braid.TimerService.C64_start",
    "Braid.TimerService.C64_stop",
    "Braid.TimerService.C64_stop_error",
    "Braid.TimerService.C64_all",
    "Braid.TimerService.C64_stoppable_partial",
    "Braid.TimerService.C64_replaced_refuted",
    "Braid.TimerService.C64_removed_runs_on",
    "Braid.TimerService.C64_stoppable_exact",
    "Braid.TimerService.C64_any_taken_refuted"
   ],
   "note": "Violated: a second task under the same id leaves the first running for good (refuted; C64_stoppable_exact: a running task can be stopped iff it was added under its id last and not removed since). The rest is proved for every sequence of calls."
  },
  {
   "property": "C65",
   "status": "partial",
   "theorems": [
    "Braid.WaitGroup.C65_count_partial",
    "Braid.WaitGroup.C65_overflow_refuted",
    "Braid.WaitGroup.C65_wait",
    "Braid.WaitGroup.C65_returns",
    "Braid.WaitGroup.C65_no_panic_partial",
    "Braid.WaitGroup.C65_reuse_refuted"
   ],
   "note": "Violated for arguments beyond int32 and, as to panics, when the group is used again before a Wait has returned (refuted). Proved in all interleavings otherwise; Wait only returns when the sum is 0, and it returns within two steps whenever the sum is 0 and no Add is in progress."
  },
  {
   "property": "C66",
   "status": "partial",
   "theorems": [
    "Braid.Shutdown.C66_old_stopped_partial",
    "Braid.Shutdown.C66_late_actor_refuted",
    "Braid.Shutdown.C66_acceptor_first",
    "Braid.Shutdown.C66_records_partial",
    "Braid.Shutdown.C66_clear_refuted",
    "Braid.Shutdown.C66_crash_partial",
    "Braid.Shutdown.C66_crash_refuted"
   ],
   "note": "Violated: actors registered during the shutdown survive it, a failed Clear is not reported, and an actor unregistered meanwhile crashes the process (refuted). Proved in all interleavings: all actors there at the signal have ended, the acceptor is closed first, records are gone if nothing is recorded after the signal and Clear succeeded."
  },
  {
   "property": "C67",
   "status": "partial",
   "theorems": [
    "Braid.Shutdown.C67_bound_partial",
    "Braid.Shutdown.C67_pending_call_refuted",
    "Braid.Shutdown.C67_clear_refuted",
    "Braid.Shutdown.C67_iff"
   ],
   "note": "Violated: the timeout does not cover closing the acceptor and clearing the address book (refuted; exact characterisation)."
  },
  {
   "property": "C68",
   "status": "partial",
   "theorems": [
    "Braid.Events.C68_partial",
    "Braid.Events.C68_event_refuted",
    "Braid.Events.C68_name_refuted",
    "Braid.Events.C68_exact",
    "Braid.Events.C68_any_refuted"
   ],
   "note": "Violated: the callback is registered as a handler for the event named like the channel, so messages with other events are dropped, and a name that already has a handler keeps it without an error (refuted). Proved for all runs when event and channel have one name and the callback was first; C68_exact says exactly which messages the callback handles."
  },
  {
   "property": "C69",
   "status": "partial",
   "theorems": [
    "Braid.TopicOpts.C69_create_partial",
    "Braid.TopicOpts.C69_rounding_partial",
    "Braid.TopicOpts.C69_later_partial",
    "Braid.TopicOpts.C69_never_refuted",
    "Braid.TopicOpts.C69_refuted",
    "Braid.TopicOpts.C69_listed"
   ],
   "note": "Violated: System.Sub drops the options, so topics made by subscriptions never expire (refuted for every sequence). Proved for CreateTopic."
  },
  {
   "property": "C70",
   "status": "proved",
   "theorems": [
    "Braid.Events.C70_register",
    "Braid.Events.C70_dispatch",
    "Braid.Events.C70_once"
   ],
   "note": "All registrations and messages in any order; handlers abstract."
  },
  {
   "property": "C71",
   "status": "partial",
   "theorems": [
    "Braid.Context.C71_identity",
    "Braid.Context.C71_value_partial",
    "Braid.Context.C71_nil_refuted",
    "Braid.Context.C71_nan_refuted",
    "Braid.Context.C71_deep_refuted",
    "Braid.Context.C71_exact"
   ],
   "note": "Identity proved for all calls. Values proved for ordinary keys; refuted for nil keys, NaN and keys whose comparison panics."
  },
  {
   "property": "C72",
   "status": "partial",
   "theorems": [
    "Braid.Redis.C72_values_partial",
    "Braid.Redis.C72_prefix_partial",
    "Braid.Redis.C72_never_refuted",
    "Braid.Redis.C72_refuted",
    "Braid.Redis.C72_exact"
   ],
   "note": "Violated: a failed command ends the result without an error (refuted for every list with one). What comes back is proved exactly."
  },
  {
   "property": "C73",
   "status": "partial",
   "theorems": [
    "Braid.Files.C73_saveFile_partial",
    "Braid.Files.C73_writeJSON_partial",
    "Braid.Files.C73_refuted"
   ],
   "note": "Violated by WriteJSON over a longer file (exact characterisation, refuted). SaveFile proved."
  },
  {
   "property": "C74",
   "status": "partial",
   "theorems": [
    "Braid.Files.C74_ext",
    "Braid.Files.C74_split_partial",
    "Braid.Files.C74_refuted"
   ],
   "note": "Extension proved for all names; name and extension make up the file name iff it has a dot or is empty (refuted for Makefile)."
  },
  {
   "property": "C75",
   "status": "partial",
   "theorems": [
    "Braid.Mgo.C75_first_partial",
    "Braid.Mgo.C75_later_partial",
    "Braid.Mgo.C75_addr_refuted",
    "Braid.Mgo.C75_panic_refuted",
    "Braid.Mgo.C75_second_refuted",
    "Braid.Mgo.C75_exact"
   ],
   "note": "Violated: two databases of one address, a Build after one that panicked and a second Build (refuted). Proved for the first Build with different addresses; C75_exact says which databases can be used."
  },
  {
   "property": "C76",
   "status": "partial",
   "theorems": [
    "Braid.Redis.C76_effect_partial",
    "Braid.Redis.C76_independent_partial",
    "Braid.Redis.C76_order_refuted",
    "Braid.Redis.C76_connect_refuted",
    "Braid.Redis.C76_independent_refuted",
    "Braid.Redis.C76_shared_refuted",
    "Braid.Redis.C76_first_partial",
    "Braid.Redis.C76_exact",
    "Braid.Redis.C76_panic_exact"
   ],
   "note": "Violated: a URL undoes earlier options, the connect timeout sets another field, and builds share one default struct, so a second build redirects the first client (refuted). Proved where no such case occurs."
  },
  {
   "property": "C77",
   "status": "partial",
   "theorems": [
    "Braid.Names.C77_funcShortName",
    "Braid.Names.C77_shortFile_partial",
    "Braid.Names.C77_root_refuted",
    "Braid.Names.C77_exact"
   ],
   "note": "Functions proved for all names; files for all paths but those in the root directory, whose slash remains (refuted)."
  },
  {
   "property": "C78",
   "status": "partial",
   "theorems": [
    "Braid.LogLib.C78_flow_partial",
    "Braid.LogLib.C78_no_key",
    "Braid.LogLib.C78_refuted",
    "Braid.LogLib.C78_register",
    "Braid.LogLib.C78_exact",
    "Braid.LogLib.C78_last"
   ],
   "note": "Violated: two fields of one name and different values in the object lose the first (refuted; C78_exact: only those). Otherwise proved for all fields, flags and orders of registration."
  },
  {
   "property": "C79",
   "status": "partial",
   "theorems": [
    "Braid.LogLib.C79_log_partial",
    "Braid.LogLib.C79_systemLog_partial",
    "Braid.LogLib.C79_systemReqInfo",
    "Braid.LogLib.C79_fields",
    "Braid.LogLib.C79_systemLog_refuted",
    "Braid.LogLib.C79_log_refuted",
    "Braid.LogLib.C79_panic",
    "Braid.LogLib.C79_exact"
   ],
   "note": "Violated: SystemLog drops records above Error, Log those of unknown levels (refuted). Otherwise proved for all levels and thresholds."
  },
  {
   "property": "C80",
   "status": "partial",
   "theorems": [
    "Braid.Span.C80_linked_partial",
    "Braid.Span.C80_others_partial",
    "Braid.Span.C80_caller",
    "Braid.Span.C80_stale_refuted",
    "Braid.Span.C80_exact"
   ],
   "note": "Violated: a value under the tracer's key that cannot be read leaves the server without a span (refuted for every such state; exactly: C80_exact). Otherwise proved for all metadata; the caller's maps are never changed. Baggage is not modelled."
  },
  {
   "property": "C81",
   "status": "partial",
   "theorems": [
    "Braid.Span.C81_exact",
    "Braid.Span.C81_partial",
    "Braid.Span.C81_end_first",
    "Braid.Span.C81_refuted"
   ],
   "note": "Violated: a second End finishes the span again, a second Begin leaves the first open (refuted). Exact count proved for every sequence of calls; once each for one End per Begin, as System.Call and System.Send do."
  },
  {
   "property": "C86",
   "status": "partial",
   "theorems": [
    "Braid.Custom.C86_partial",
    "Braid.Custom.C86_refuted",
    "Braid.Custom.C86_accepted"
   ],
   "note": "Violated: NaN and others are accepted though encoding fails (refuted; exact characterisation at any depth)."
  },
  {
   "property": "C87",
   "status": "partial",
   "theorems": [
    "Braid.Custom.C87_partial",
    "Braid.Custom.C87_failure_refuted",
    "Braid.Custom.C87_empty_refuted",
    "Braid.Custom.C87_exact"
   ],
   "note": "Violated: a failed encoding destroys the contents, and objects encoded to nothing do not come back (refuted for every such object). Otherwise proved for every lawful serializer (C87_exact)."
  },
  {
   "property": "C82",
   "status": "partial",
   "theorems": [
    "Braid.Tcc.C82_success_partial",
    "Braid.Tcc.C82_stuck_refuted",
    "Braid.Tcc.C82_refuted",
    "Braid.Tcc.C82_confirm_refuted"
   ],
   "note": "Violated: no cancel is ever sent, so whenever one try fails the other stays pending in every continuation (refuted in general and by witness). Proved in all interleavings when the four calls return nil."
  },
  {
   "property": "C83",
   "status": "partial",
   "theorems": [
    "Braid.Tcc.C83_results",
    "Braid.Tcc.C83_restores",
    "Braid.Tcc.C83_others",
    "Braid.Tcc.C83_effect_partial",
    "Braid.Tcc.C83_overlap_refuted",
    "Braid.Tcc.C83_overlap_exact"
   ],
   "note": "Results and the restored value proved for every sequence. Violated by any two transactions that overlap (refuted); effect proved for all sequences in which none do. C83_overlap_exact: the first overlap is harmless in all continuations iff a transaction was confirmed before."
  },
  {
   "property": "C84",
   "status": "partial",
   "theorems": [
    "Braid.Loader.C84_partial",
    "Braid.Loader.C84_nodes_partial",
    "Braid.Loader.C84_panic_refuted",
    "Braid.Loader.C84_failure_refuted",
    "Braid.Loader.C84_panic_exact"
   ],
   "note": "Proved for every factory whose constructors are filed under their names, every map order and outcome, and any number of nodes. Violated by other factories (panic) and by registrations that fail, which are only logged."
  },
  {
   "property": "C85",
   "status": "partial",
   "theorems": [
    "Braid.Loader.C85_has_partial",
    "Braid.Loader.C85_seen",
    "Braid.Loader.C85_refuted",
    "Braid.Loader.C85_exact",
    "Braid.Loader.C85_for_ever_refuted"
   ],
   "note": "Violated: options of earlier actors of the type on the node are seen too (refuted; what is seen is proved exactly). Proved in all runs: every option of the builder, the id and the type are there."
  },
  {
   "property": "C88",
   "status": "proved",
   "theorems": [
    "Braid.Timer.C88_in_order",
    "Braid.Timer.C88_none_skipped",
    "Braid.Timer.C88_all",
    "Braid.Timer.C88_closed"
   ],
   "note": "All interleavings of any number of timers, callers and the loop."
  },
  {
   "property": "C89",
   "status": "partial",
   "theorems": [
    "Braid.Timer.C89_stale_refuted",
    "Braid.Timer.C89_first_partial",
    "Braid.Timer.C89_reset",
    "Braid.Timer.C89_exact"
   ],
   "note": "Violated: NextTrigger is not updated when a tick runs (refuted). Proved until the first tick and after every Reset. C89_exact: it is right iff no tick was queued, and otherwise too small by one interval for every tick."
  },
  {
   "property": "C90",
   "status": "proved",
   "theorems": [
    "Braid.Logger.C90_made",
    "Braid.Logger.C90_written"
   ],
   "note": ""
  },
  {
   "property": "C91",
   "status": "partial",
   "theorems": [
    "Braid.Logger.C91_format_refuted",
    "Braid.Logger.C91_shared_refuted",
    "Braid.Logger.C91_shown_partial",
    "Braid.Logger.C91_independent_partial",
    "Braid.Logger.C91_text"
   ],
   "note": "Violated: the encoder configuration is copied before the format of the caller is set, and a configuration that is passed in is changed (refuted). Proved: whether and for which frame the caller is shown, and with which encoder; independence otherwise."
  },
  {
   "property": "C92",
   "status": "partial",
   "theorems": [
    "Braid.Logger.C92_refuted",
    "Braid.Logger.C92_counts_partial"
   ],
   "note": "Violated by Suffix, MaxSize, MaxBackups, Compress and CallerFunc (refuted); which options have an effect is proved exactly."
  },
  {
   "property": "C93",
   "status": "partial",
   "theorems": [
    "Braid.Server.C93_built",
    "Braid.Server.C93_passed",
    "Braid.Server.C93_rejected",
    "Braid.Server.C93_recovered",
    "Braid.Server.C93_acceptor",
    "Braid.Server.C93_stream_refuted",
    "Braid.Server.C93_streams",
    "Braid.Server.C93_panic_exact",
    "Braid.Server.C93_handled_exact"
   ],
   "note": "Proved for unary calls, all lists of options. Violated for streams: stream interceptors are not installed (refuted)."
  },
  {
   "property": "C94",
   "status": "partial",
   "theorems": [
    "Braid.Server.C94_leak_refuted",
    "Braid.Server.C94_race_refuted",
    "Braid.Server.C94_calls_refuted",
    "Braid.Server.C94_rest_partial",
    "Braid.Server.C94_graceful_partial",
    "Braid.Server.C94_no_new_calls",
    "Braid.Server.C94_no_crash",
    "Braid.Server.C94_returns_once",
    "Braid.Server.C94_open_exact",
    "Braid.Server.C94_ends_exact"
   ],
   "note": "Violated: a listener not given to Run stays open, Close can return before the listener is closed, and without graceful stop calls go on (refuted). Proved: listeners given to Run are closed once its goroutine has come to rest, a graceful Close waits for all calls, no call starts after Close; and exactly when Close has ended the server."
  },
  {
   "property": "C95",
   "status": "proved",
   "theorems": [
    "Braid.Tracing.C95_get_span",
    "Braid.Tracing.C95_options"
   ],
   "note": ""
  },
  {
   "property": "C96",
   "status": "partial",
   "theorems": [
    "Braid.Tracing.C96_no_tracer_refuted",
    "Braid.Tracing.C96_never",
    "Braid.Tracing.C96_untraced_refuted",
    "Braid.Tracing.C96_factory_refuted",
    "Braid.Tracing.C96_names_refuted",
    "Braid.Tracing.C96_traced_partial",
    "Braid.Tracing.C96_result",
    "Braid.Tracing.C96_names_partial",
    "Braid.Tracing.C96_own_name_partial",
    "Braid.Tracing.C96_other_name_refuted",
    "Braid.Tracing.C96_args_refuted",
    "Braid.Tracing.C96_args_partial"
   ],
   "note": "Violated: collections never get the tracer; two operations are not traced; the factory must have the empty name; names of commands are shared; documents of two operations are not shown (refuted). Proved for a collection with a tracer: the other 15 operations are traced; results never change."
  },
  {
   "property": "C97",
   "status": "partial",
   "theorems": [
    "Braid.Tracing.C97_slow_refuted",
    "Braid.Tracing.C97_counts_partial"
   ],
   "note": "Violated: the limits for slow requests and spans are not used (refuted); which options have an effect is proved exactly."
  },
  {
   "property": "C98",
   "status": "partial",
   "theorems": [
    "Braid.Reuse.C98_refused_refuted",
    "Braid.Reuse.C98_expired_refuted",
    "Braid.Reuse.C98_timeout_refuted",
    "Braid.Reuse.C98_patient_partial",
    "Braid.Reuse.C98_smooth_partial",
    "Braid.Reuse.C98_returns_partial",
    "Braid.Reuse.C98_rest"
   ],
   "note": "Violated: after a refused, expired or timed-out call the left-over waiter closes the Done channel of the next call with the same wrapper, so that call returns nil unhandled and the process panics later (refuted). Proved: safe for any number of calls if each begins only when the earlier ones have come to rest, or if the earlier ones were accepted and returned in time; calls return; every use comes to rest within 21 steps per call."
  },
  {
   "property": "C99",
   "status": "partial",
   "theorems": [
    "Braid.Maps.C99_id_map",
    "Braid.Maps.C99_topic_map",
    "Braid.Maps.C99_channel_map",
    "Braid.Maps.C99_actors_partial",
    "Braid.Maps.C99_actors_refuted",
    "Braid.Maps.C99_tasks_partial",
    "Braid.Maps.C99_tasks_refuted",
    "Braid.Maps.C99_chains_partial",
    "Braid.Maps.C99_chains_refuted",
    "Braid.Maps.C99_timers_partial",
    "Braid.Maps.C99_timers_refuted",
    "Braid.Maps.C99_options_partial",
    "Braid.Maps.C99_shared_options_partial",
    "Braid.Maps.C99_options_refuted",
    "Braid.Maps.C99_versions_partial",
    "Braid.Maps.C99_versions_refuted",
    "Braid.Maps.C99_collections_partial",
    "Braid.Maps.C99_collections_refuted",
    "Braid.Maps.C99_no_deadlock"
   ],
   "note": "Violated for the actors of a node, tick tasks, handlers, timers, options, versions and databases (refuted). Proved for local ids, topics and channels; for each of the others exactly which functions may be called together; no deadlock."
  },
  {
   "property": "C100",
   "status": "partial",
   "theorems": [
    "Braid.Payload.C100_request",
    "Braid.Payload.C100_response_partial",
    "Braid.Payload.C100_local",
    "Braid.Payload.C100_by_id_partial",
    "Braid.Payload.C100_delivers",
    "Braid.Payload.C100_transparent_partial",
    "Braid.Payload.C100_failure_refuted",
    "Braid.Payload.C100_prefilled_refuted",
    "Braid.Payload.C100_error_never",
    "Braid.Payload.C100_error_refuted",
    "Braid.Payload.C100_two_hops_refuted"
   ],
   "note": "The request arrives byte by byte over any number of hops; the response after one hop is what the actor left, after more it is that or blank; a failed call leaves the response alone; the body is the same wherever the caller is if the actor answers the request only. Violated by failures behind the first hop (nil and a blank response), by what the caller had put into the response, and by the error of the wrapper, which never comes back."
  },
  {
   "property": "C101",
   "status": "partial",
   "theorems": [
    "Braid.DisMutex.C101_failed",
    "Braid.DisMutex.C101_taken",
    "Braid.DisMutex.C101_failed_partial",
    "Braid.DisMutex.C101_lost_refuted"
   ],
   "note": "A failed Lock made four attempts 700 ms apart and took at least 2.8 seconds; an attempt that is answered with false found a key set less than ten seconds ago and not unlocked; if no answer to a successful attempt was lost, somebody had the lock. Violated by a lost answer: the key is set, nobody knows, and every caller is locked out."
  },
  {
   "property": "C102",
   "status": "partial",
   "theorems": [
    "Braid.Book.C102_found_partial",
    "Braid.Book.C102_listed_partial",
    "Braid.Book.C102_register_partial",
    "Braid.Book.C102_unregister_partial",
    "Braid.Book.C102_load_partial",
    "Braid.Book.C102_clear_partial",
    "Braid.Book.C102_register_refuted",
    "Braid.Book.C102_unregister_refuted",
    "Braid.Book.C102_stale_refuted",
    "Braid.Book.C102_clear_refuted"
   ],
   "note": "Proved for any number of goroutines and nodes, command by command, as long as calls for one id (and Clear of its node) do not overlap and Redis fails no writing call. Violated by two Registers or two Unregisters of one id (wrong load), by Unregister during Register (half a registration that cannot be repeated) and by Register during Clear (a record that stays)."
  },
  {
   "property": "C103",
   "status": "proved",
   "theorems": [
    "Braid.Grpc.C103_result",
    "Braid.Grpc.C103_at_most_once"
   ],
   "note": "All interleavings, all limits, all answers of the network. A panic inside Invoke is not modelled."
  },
  {
   "property": "C104",
   "status": "partial",
   "theorems": [
    "Braid.TopicLife.C104_published_partial",
    "Braid.TopicLife.C104_published_refuted",
    "Braid.TopicLife.C104_pub",
    "Braid.TopicLife.C104_ends",
    "Braid.TopicLife.C104_fault_reported",
    "Braid.TopicLife.C104_error_reasons",
    "Braid.TopicLife.C104_returns",
    "Braid.TopicLife.C104_create_silent",
    "Braid.TopicLife.C104_kept",
    "Braid.TopicLife.C104_close_partial",
    "Braid.TopicLife.C104_lost_refuted",
    "Braid.TopicLife.C104_order",
    "Braid.TopicLife.C104_once",
    "Braid.TopicLife.C104_due"
   ],
   "note": "Any number of processes and calls, all interleavings of Redis commands with failures, lost answers and expiry. Proved: what is received was put into the stream, and is a published message if no newTopic is in progress and none had a failing command; a message stays until it is received, expires or is deleted by a Close; what a Close deletes came after it was called. Refuted without any failure: the entry of a second newTopic is delivered as a message; a Sub and a Pub that returned nil between the checks of a Close and its deletion are lost for good. That the topic of a process keeps its channel in a map and does not create the group again is not modelled (see C39, C41)."
  },
  {
   "property": "C105",
   "status": "partial",
   "theorems": [
    "Braid.RedisOps.C105_call_partial",
    "Braid.RedisOps.C105_context_refuted",
    "Braid.RedisOps.C105_cad_refuted",
    "Braid.RedisOps.C105_streams_refuted",
    "Braid.RedisOps.C105_refuted",
    "Braid.RedisOps.C105_no_client",
    "Braid.RedisOps.C105_nil_conn",
    "Braid.RedisOps.C105_life",
    "Braid.RedisOps.C105_life_partial",
    "Braid.RedisOps.C105_life_refuted"
   ],
   "note": "All 51 wrappers of 3rd/redis/client.go with all arguments and replies. Proved: each calls one method, which sends the Redis command of that name with the arguments in order, with the caller's context and result; exactly how long keys live. Refuted: ConnHGet drops the caller's context, CAD hides errors, XReadGroup without streams panics, SetEx and Expire cut off fractions of seconds. What go-redis sends for a method is part of the model."
  },
  {
   "property": "C106",
   "status": "partial",
   "theorems": [
    "Braid.RedisOps.C106_traced_partial",
    "Braid.RedisOps.C106_never_refuted",
    "Braid.RedisOps.C106_refuted",
    "Braid.RedisOps.C106_key",
    "Braid.RedisOps.C106_name",
    "Braid.RedisOps.C106_del_refuted"
   ],
   "note": "Violated by every operation: doTracing always returns an error (refuted for all). Proved for any doTracing that makes spans: all but Set, Incr and CAD are traced, with the key, also when the client panics."
  },
  {
   "property": "C107",
   "status": "partial",
   "theorems": [
    "Braid.CallTree.C107_circle",
    "Braid.CallTree.C107_message",
    "Braid.CallTree.C107_forever",
    "Braid.CallTree.C107_layered_partial",
    "Braid.CallTree.C107_steps",
    "Braid.CallTree.C107_refuted",
    "Braid.CallTree.C107_cross_refuted"
   ],
   "note": "Any number of actors, goroutines, groups and remote calls. Proved: an execution has at most 14 steps per operation begun; when nothing moves by itself, whatever has not returned or is not handled waits for a circle of actors waiting for each other, and stays so until a timeout; without circles (ranked actors) everything has returned and been handled. Violated: the originator check lets a call come back to an actor that is not the first one, and two calls from outside can cross."
  },
  {
   "property": "C109",
   "status": "partial",
   "theorems": [
    "Braid.Actor.C109_bounded",
    "Braid.Actor.C109_exit_returns",
    "Braid.Actor.C109_handled",
    "Braid.Actor.C109_reentry",
    "Braid.Actor.C109_groups",
    "Braid.Actor.C109_refuted",
    "Braid.Actor.C109_inside_refuted"
   ],
   "note": "All interleavings. Proved: at most 19 steps per input and 7 per Exit beside polling; when nothing but polling is possible every Exit has returned and the loop has ended, and what was in the queues when closing began has been handled, if no delivery overlapped with that moment and the ten seconds did not pass. Violated: a delivery that overlaps with the end leaves its caller waiting, and Exit called inside a handler of the same actor never returns (refuted)."
  },
  {
   "property": "C108",
   "status": "partial",
   "theorems": [
    "Braid.NodeOpts.C108_node",
    "Braid.NodeOpts.C108_weight_refuted",
    "Braid.NodeOpts.C108_init_refuted",
    "Braid.NodeOpts.C108_get_partial",
    "Braid.NodeOpts.C108_get_refuted",
    "Braid.NodeOpts.C108_client",
    "Braid.NodeOpts.C108_client_refuted",
    "Braid.NodeOpts.C108_init",
    "Braid.NodeOpts.C108_leak_refuted"
   ],
   "note": "All lists of options. Proved: nodes and clients have the last values given; exactly which options have an effect; Get gives the last node built. Violated: NodeWithWeight, the options of Init, and five options of the client have no effect; before a node is built Get gives a non-nil node whose methods panic; Init of a client loses a connection iff an address that can be dialled is given twice."
  },
  {
   "property": "C110",
   "status": "partial",
   "theorems": [
    "Braid.Share.C110_last_partial",
    "Braid.Share.C110_undisturbed_partial",
    "Braid.Share.C110_delivered",
    "Braid.Share.C110_overwritten",
    "Braid.Share.C110_reenter",
    "Braid.Share.C110_refuted"
   ],
   "note": "All interleavings. Proved exactly: a wrapper is handled under the event written last into its request, through it or a wrapper that shares the request; this is the event of its send if nothing was written in between. Violated when a wrapper is sent again before it is handled, for all pairs of events and actors, and for two ReenterCalls from one message (refuted). Missing: requests given a header object of the caller after WithReqHeader(nil)."
  },
  {
   "property": "C111",
   "status": "partial",
   "theorems": [
    "Braid.Share.C111_fresh",
    "Braid.Share.C111_effect",
    "Braid.Share.C111_pointers",
    "Braid.Share.C111_isolated_partial",
    "Braid.Share.C111_separate",
    "Braid.Share.C111_swap",
    "Braid.Share.C111_swap_refuted",
    "Braid.Share.C111_refuted",
    "Braid.Share.C111_own_header_refuted",
    "Braid.Share.C111_reply",
    "Braid.Share.C111_possible"
   ],
   "note": "All heaps that the functions can build. Proved: new wrappers are fresh, the exact effect of each function, which pointers can change, isolation if a header object is given to one message only. Violated: Swap never exchanges request and response, and a header given to two messages is shared (refuted)."
  },
  {
   "property": "C112",
   "status": "partial",
   "theorems": [
    "Braid.Race.C112_queue",
    "Braid.Race.C112_writes",
    "Braid.Race.C112_only_empty",
    "Braid.Race.C112_open_partial",
    "Braid.Race.C112_refuted"
   ],
   "note": "All interleavings, in the model whose steps are the single memory operations of the queue. Proved: the queue alone is free of races; an actor races only for the end of a queue, between its loop and checkClose, and only while it closes. Violated there: checkClose calls Empty, which only the consumer may call."
  },
  {
   "property": "C113",
   "status": "partial",
   "theorems": [
    "Braid.Race.C113_writes",
    "Braid.Race.C113_never_stopped_partial",
    "Braid.Race.C113_disciplined_partial",
    "Braid.Race.C113_state_refuted",
    "Braid.Race.C113_ticker_refuted"
   ],
   "note": "All interleavings and configurations. Proved: no races as long as nobody stops the task, or with callers who stop and restart only at rest, without panics. Violated: stop uses State and TimeTicker without the mutex."
  },
  {
   "property": "C114",
   "status": "partial",
   "theorems": [
    "Braid.TickTask.C114_never_started_partial",
    "Braid.TickTask.C114_never_ends",
    "Braid.TickTask.C114_exact",
    "Braid.TickTask.C114_refuted"
   ],
   "note": "All interleavings. Violated as badly as possible: no goroutine ever ends; at rest exactly one is left per effective start and panic, for good (proved exactly); n restarts leave n goroutines, for every n."
  },
  {
   "property": "C115",
   "status": "partial",
   "theorems": [
    "Braid.Fail.C115_nil_partial",
    "Braid.Fail.C115_left_partial",
    "Braid.Fail.C115_result",
    "Braid.Fail.C115_blind",
    "Braid.Fail.C115_goes_on",
    "Braid.Fail.C115_refuted"
   ],
   "note": "All interleavings, handlers, refusals, timeouts and contexts. Violated: nil is returned however the handler ends. Proved: exactly when nil is returned; that no result and no order of results depends on what handlers return; what nil does say if the waiter has not given up (the message was handled, and the wrapper holds what the handler left there); that failures block nobody."
  },
  {
   "property": "C116",
   "status": "partial",
   "theorems": [
    "Braid.Panic.C116_crash_exact",
    "Braid.Panic.C116_last",
    "Braid.Panic.C116_loop_exact",
    "Braid.Panic.C116_contained_partial",
    "Braid.Panic.C116_released",
    "Braid.Panic.C116_answers",
    "Braid.Panic.C116_refuted"
   ],
   "note": "All code of users, ending in any way. Violated by panics in callbacks given to Then (the process ends) and by runtime.Goexit in a handler (the loop of the actor ends). Proved: exactly which code can end the process and a loop; that everything else is contained and that callers, futures and requests get an answer."
  },
  {
   "property": "C117",
   "status": "partial",
   "theorems": [
    "Braid.Timer.C117_exact",
    "Braid.Timer.C117_refuted",
    "Braid.Timer.C117_ends_partial",
    "Braid.Timer.C117_full_refuted"
   ],
   "note": "All interleavings of any number of timers, callers and the loop. Violated: no goroutine ends with the cancellation of its timer, for any number of timers; exactly one lives for each OnTimer until the shutdown. Proved: after the shutdown each can end while the loop receives; it cannot with a full channel once the loop has ended."
  },
  {
   "property": "C118",
   "status": "partial",
   "theorems": [
    "Braid.Live.C118_found_partial",
    "Braid.Live.C118_reached_partial",
    "Braid.Live.C118_call_refuted",
    "Braid.Live.C118_any_refuted",
    "Braid.Live.C118_local_refuted",
    "Braid.Live.C118_owner_refuted"
   ],
   "note": "Any number of goroutines that register, unregister and call on any number of nodes, all interleavings, Redis may fail. Proved if nothing that concerns the actor overlaps with its Register and Unregister and no other node uses its id. Violated otherwise: by a call on the node during Register (by id, with ? and with ~), and by Unregister of the id on another node."
  },
  {
   "property": "C119",
   "status": "proved",
   "theorems": [
    "Braid.Wire.C119_no_amplification",
    "Braid.Wire.C119_normal_form"
   ],
   "note": "Inputs of fewer than 2^63 bytes, the maximum length of a Go slice; any bytes, into any receiver."
  },
  {
   "property": "C120",
   "status": "partial",
   "theorems": [
    "Braid.Wire.C120_accepted_exact",
    "Braid.Wire.C120_unambiguous",
    "Braid.Wire.C120_concatenation",
    "Braid.Wire.C120_wellformed_partial",
    "Braid.Wire.C120_malformed_refuted"
   ],
   "note": "Inputs of fewer than 2^63 bytes. Proved: exactly which bytes each decoder accepts and what it returns, as a grammar that is unambiguous; messages of the format are read as their fields. Violated: fields with numbers above 2^32, groups ended by the tag of another group and numbers of more than 64 bits are accepted."
  },
  {
   "property": "C121",
   "status": "partial",
   "theorems": [
    "Braid.Live.C121_stopped_partial",
    "Braid.Live.C121_gone_partial",
    "Braid.Live.C121_not_reached_partial",
    "Braid.Live.C121_again_partial",
    "Braid.Live.C121_fault_refuted",
    "Braid.Live.C121_half_refuted",
    "Braid.Live.C121_owner_refuted",
    "Braid.Live.C121_overlap_refuted",
    "Braid.Live.C121_call_refuted"
   ],
   "note": "Any number of goroutines that register, unregister and call on any number of nodes, all interleavings. Proved if nothing that concerns the actor overlaps with its Register and Unregister and no other node uses its id: the actor is stopped whatever fails, and its records are gone, no call finds it and it can be registered again if Redis does not fail in Unregister. Violated by failures of Redis, which Unregister hides, by Unregister on another node, and by overlapping operations."
  },
  {
   "property": "C122",
   "status": "partial",
   "theorems": [
    "Braid.Race.C122_writes",
    "Braid.Race.C122_only_partial",
    "Braid.Race.C122_sole_partial",
    "Braid.Race.C122_cancel_refuted",
    "Braid.Race.C122_reset_refuted",
    "Braid.Race.C122_two_refuted"
   ],
   "note": "Any number of timers and callers, all interleavings. Proved: the only data races are calls of Stop or Reset before two ticks of the timer, and a Reset that overlaps with another call to the timer; none if one goroutine makes all calls and makes them after two ticks. Violated by an actor that makes a timer and cancels or resets it, and by two goroutines that reset it."
  },
  {
   "property": "C123",
   "status": "partial",
   "theorems": [
    "Braid.Race.C123_writes",
    "Braid.Race.C123_only_partial",
    "Braid.Race.C123_ctx_refuted",
    "Braid.Race.C123_returned_refuted"
   ],
   "note": "Any number of callers and actors of one node, any handlers, all interleavings; callers may use the wrapper again once their call has returned. Proved: races for the wrapper of a call happen only with a timeout or the end of the context of this call. Violated by both, for every actor and event with a handler."
  },
  {
   "property": "C124",
   "status": "partial",
   "theorems": [
    "Braid.Trace.C124_exact",
    "Braid.Trace.C124_tidy_partial",
    "Braid.Trace.C124_two_refuted",
    "Braid.Trace.C124_refuted"
   ],
   "note": "All histories of wrappers and calls. Proved: which span is the parent, exactly; that it is the right one if every wrapper is used once and made from the wrapper of the call handled. Violated whenever a wrapper is used for two calls: Call puts its span into the context of the wrapper and leaves it there."
  },
  {
   "property": "C125",
   "status": "partial",
   "theorems": [
    "Braid.Reenter.C125_deadline_partial",
    "Braid.Reenter.C125_not_early",
    "Braid.Reenter.C125_only",
    "Braid.Reenter.C125_default_refuted",
    "Braid.Reenter.C125_busy_refuted",
    "Braid.Reenter.C125_in_time_refuted",
    "Braid.Reenter.C125_timeout"
   ],
   "note": "Any number of reentrant calls, all interleavings, time. Proved: a deadline completes the future unless the inner call has returned and the actor is busy or stopped; no deadline has an effect before it comes. Violated: the timeout of 30 seconds has no effect at all; a busy actor delays the future beyond any deadline."
  },
  {
   "property": "C126",
   "status": "partial",
   "theorems": [
    "Braid.Grpc.C126_call",
    "Braid.Grpc.C126_call_wait_partial",
    "Braid.Grpc.C126_call_wait_refuted"
   ],
   "note": "All lists of values, exactly. Call meets it; CallWait panics for every value that is no option."
  },
  {
   "property": "C127",
   "status": "partial",
   "theorems": [
    "Braid.Register.C127_again_partial",
    "Braid.Register.C127_stuck_refuted",
    "Braid.Register.C127_refuted"
   ],
   "note": "All histories and interleavings. Proved for ids that one node alone uses, whatever happens with other ids. Violated for ids that two nodes used one after the other: the record is shared and the IDMap is not, so that an Unregister that finds no record leaves the id in the IDMap, for ever."
  },
  {
   "property": "C128",
   "status": "partial",
   "theorems": [
    "Braid.PubSub.C128_stops_partial",
    "Braid.PubSub.C128_process_partial",
    "Braid.PubSub.C128_closed_refuted",
    "Braid.PubSub.C128_again_refuted",
    "Braid.PubSub.C128_exited_refuted",
    "Braid.PubSub.C128_loop_refuted",
    "Braid.PubSub.C128_spin_refuted",
    "Braid.PubSub.C128_refuted"
   ],
   "note": "All interleavings of any number of subscribers, publishers, closings and exits. Proved: nothing published after a channel was removed goes to its former subscribers until the channel is made again; nothing goes to a subscriber whose process has ended. Violated: Close only removes the consumer, whose read loop goes on and makes it again, and Exit does not close anything; the closed or dead subscriber may take any number of messages from the living ones. The read loop never ends."
  },
  {
   "property": "C129",
   "status": "partial",
   "theorems": [
    "Braid.Race.C129_future",
    "Braid.Race.C129_future_writes",
    "Braid.Race.C129_buffer_partial",
    "Braid.Race.C129_buffer_writes",
    "Braid.Race.C129_len_refuted"
   ],
   "note": "All interleavings of any number of goroutines. Proved for futures, and for Put, Load and receptions of a buffer; the tables of accesses are shown to list every write. Violated by Len, which reads the backlog without the lock."
  },
  {
   "property": "C130",
   "status": "proved",
   "theorems": [
    "Braid.Wire.C130_roundtrip",
    "Braid.Wire.C130_buffer",
    "Braid.Wire.C130_decode_total",
    "Braid.Wire.C130_decodes",
    "Braid.Wire.C130_injective"
   ],
   "note": "Byte by byte, for all messages, buffers and inputs of fewer than 2^63 bytes. The decoder is characterised exactly by a grammar."
  },
  {
   "property": "C131",
   "status": "partial",
   "theorems": [
    "Braid.CallTree.C131_returns",
    "Braid.CallTree.C131_waiter",
    "Braid.CallTree.C131_group_partial",
    "Braid.CallTree.C131_alive",
    "Braid.CallTree.C131_left",
    "Braid.CallTree.C131_forever",
    "Braid.CallTree.C131_steps",
    "Braid.CallTree.C131_leak_refuted"
   ],
   "note": "All calls return and the goroutine that waits for the answer ends. The goroutine that waits for the group ends unless a message is in the mailbox of an actor that has ended: violated then, any number of goroutines is left for ever."
  },
  {
   "property": "C132",
   "status": "partial",
   "theorems": [
    "Braid.Wire.C132_marshal_to",
    "Braid.Wire.C132_sized",
    "Braid.Wire.C132_append_partial",
    "Braid.Wire.C132_prefix",
    "Braid.Wire.C132_capacity_refuted",
    "Braid.Wire.C132_fresh"
   ],
   "note": "MarshalTo and MarshalToSizedBuffer are characterised for every buffer. XXX_Marshal appends only to an empty slice whose capacity is exactly Size (the one that the library passes); with more capacity every message that is not empty is lost (refuted). The deterministic variant, which calls the library, is not modelled."
  },
  {
   "property": "C133",
   "status": "partial",
   "theorems": [
    "Braid.Mpsc.C133_values",
    "Braid.Mpsc.C133_nodes",
    "Braid.Mpsc.C133_bound",
    "Braid.Mpsc.C133_empty",
    "Braid.Unbounded.C133_slots",
    "Braid.Unbounded.C133_backlog",
    "Braid.Unbounded.C133_refines",
    "Braid.Unbounded.C133_goes_on",
    "Braid.Context.C133_context_partial",
    "Braid.Context.C133_context_refuted"
   ],
   "note": "Proved for the queue and for the backlog, in all interleavings: exactly which nodes are kept, and that the array holds no value outside of the slice. Violated by contexts: every value ever set is kept."
  },
  {
   "property": "C134",
   "status": "partial",
   "theorems": [
    "Braid.Mpsc.C134_same_partial",
    "Braid.Mpsc.C134_wakeup_partial",
    "Braid.Mpsc.C134_count_partial",
    "Braid.Mpsc.C134_burst",
    "Braid.Mpsc.C134_wakeup_refuted",
    "Braid.Mpsc.C134_push_silent"
   ],
   "note": "Proved for all runs in which fewer than 2^31 values wait and at most 2^31 calls of Push run at once: they are runs of the queue that counts with integers. Violated with 2^31 values waiting: the consumer sleeps for good."
  },
  {
   "property": "C135",
   "status": "partial",
   "theorems": [
    "Braid.Where.C135_errcode",
    "Braid.Where.C135_add",
    "Braid.Where.C135_add_refuted",
    "Braid.Where.C135_trace",
    "Braid.Where.C135_no_trace",
    "Braid.Where.C135_caller_partial",
    "Braid.Where.C135_default_refuted",
    "Braid.Where.C135_method_partial",
    "Braid.Where.C135_caller_refuted"
   ],
   "note": "All stacks. New and Unknow show the right place (for files outside the root directory, see C77); Add shows that of the caller of the caller. Traces contain the place and the innermost 62 functions. The caller of a record is right for exactly one number of frames to skip, which is not the default and differs between functions and methods."
  },
  {
   "property": "C136",
   "status": "partial",
   "theorems": [
    "Braid.Accept.C136_stack",
    "Braid.Accept.C136_call_exact",
    "Braid.Accept.C136_once",
    "Braid.Accept.C136_answered_partial",
    "Braid.Accept.C136_bad",
    "Braid.Accept.C136_reply",
    "Braid.Accept.C136_recovered",
    "Braid.Accept.C136_encode_exact",
    "Braid.Accept.C136_refuted"
   ],
   "note": "All bytes (fewer than 2^63) and all behaviours of Call. Violated: the response is encoded outside the recovery, and a handler that Call no longer waits for can make it longer between the measuring and the writing; the panic ends the process. Partial: answered if nobody writes to the response after Call has returned."
  },
  {
   "property": "C137",
   "status": "partial",
   "theorems": [
    "Braid.SLog.C137_export",
    "Braid.SLog.C137_default",
    "Braid.SLog.C137_set_partial",
    "Braid.SLog.C137_own_partial",
    "Braid.SLog.C137_own_exported",
    "Braid.SLog.C137_own_refuted",
    "Braid.SLog.C137_nil",
    "Braid.SLog.C137_nil_refuted"
   ],
   "note": "All sequences of calls. Violated: ExportSLog writes into the object that is set, so the records of this object go to another logger with another tag; after SetSLog(nil) every record panics. Partial: objects that were not set at an ExportSLog. Calls are atomic in the model."
  },
  {
   "property": "C138",
   "status": "partial",
   "theorems": [
    "Braid.System.C138_exact",
    "Braid.System.C138_type_partial",
    "Braid.System.C138_symbol",
    "Braid.System.C138_refuted",
    "Braid.System.C138_panics_exact",
    "Braid.System.C138_panic_refuted"
   ],
   "note": "Violated: a call by id that names another type takes off the weight of that type, and panics if the node has no constructor for it. Exact characterisations of both; proved for calls that name the type of the record, and for all calls with ? and ~. The node has its address for itself (see C26)."
  },
  {
   "property": "C139",
   "status": "partial",
   "theorems": [
    "Braid.Grpc.Close.C139_result",
    "Braid.Grpc.Close.C139_answered",
    "Braid.Grpc.Close.C139_left_exact",
    "Braid.Grpc.Close.C139_left_forever",
    "Braid.Grpc.Close.C139_clean_partial",
    "Braid.Grpc.Close.C139_unbounded_refuted",
    "Braid.Grpc.Close.C139_refuted"
   ],
   "note": "Violated: after a timeout nobody receives from the channel without a buffer, and the goroutine is stuck for ever; any number of them. Proved exactly which goroutines are left, and that results are right. The three seconds are an event of the environment; nothing calls closeconn."
  }
 ]
}