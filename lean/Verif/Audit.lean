import Verif.Mpsc.Props
import Verif.Unbounded.Props
import Verif.Future.Props
import Verif.Chain.Props
import Verif.Wire.Props
import Verif.Msg.Props
import Verif.AddressBook.Props
import Verif.DisMutex.Props
import Verif.Actor.Props
import Verif.Actor.ExitProps
import Verif.Reenter.Props
import Verif.Timer.Props
import Verif.CallTree.Props
import Verif.CallTree.WaitProps
import Verif.System.Props
import Verif.Register.Props
import Verif.PubSub.Props
import Verif.Grpc.Props
import Verif.Cron.Props
import Verif.Errcode.Props
import Verif.Versions.Props
import Verif.Token.Props
import Verif.Reporter.Props
import Verif.Builder.Props
import Verif.TickTask.Props
import Verif.TickTask.DiscProps
import Verif.TickTask.RoundProps
import Verif.TickTask.ServiceProps
import Verif.WaitGroup.Props
import Verif.Shutdown.Props
import Verif.Events.Props
import Verif.TopicOpts.Props
import Verif.Context.Props
import Verif.Redis.Props
import Verif.Files.Props
import Verif.Mgo.Props
import Verif.Names.Props
import Verif.LogLib.Props
import Verif.Custom.Props
import Verif.Span.Props
import Verif.Tcc.Props
import Verif.Loader.Props
import Verif.Logger.Props
import Verif.Server.Props
import Verif.Tracing.Props
import Verif.Reuse.Props
import Verif.Maps.Props
import Verif.NodeOpts.Props
import Verif.Payload.Props
import Verif.Book.Props
import Verif.TopicLife.Props
import Verif.RedisOps.Props
import Verif.Share.EventProps
import Verif.Share.Props
import Verif.Race.QueueProps
import Verif.Race.TickProps
import Verif.TickTask.LeakProps
import Verif.TopicLife.OrderProps
import Verif.Fail.Props
import Verif.Panic.Props
import Verif.Timer.LeakProps
import Verif.Live.Props
import Verif.Wire.Grammar
import Verif.Wire.Accept
import Verif.Wire.AcceptLoop
import Verif.Wire.AcceptSwitch
import Verif.Wire.Normal
import Verif.Wire.Unique
import Verif.Wire.PropsAccept
import Verif.Live.SpecGone
import Verif.Live.Gone
import Verif.Live.Away
import Verif.Live.After
import Verif.Live.Orphan
import Verif.Live.PropsGone
import Verif.Register.SpecBound
import Verif.Register.Bound
import Verif.Register.BoundLive
import Verif.Register.PropsBound
import Verif.PubSub.SpecLost
import Verif.PubSub.Lost
import Verif.PubSub.PropsLost
import Verif.TopicLife.PropsEnd
import Verif.Timer.PropsReturn
import Verif.Grpc.Bound
import Verif.Grpc.PropsBound
import Verif.AddressBook.PropsSelect
import Verif.Race.Timer
import Verif.Race.TimerSpec
import Verif.Race.TimerLemmas
import Verif.Race.TimerProps
import Verif.Race.Wrap
import Verif.Race.WrapProps
import Verif.Register.PropsLeak
import Verif.Trace.Props
import Verif.Reenter.TimedProps
import Verif.Grpc.PropsOptions
import Verif.Reenter.PropsAttach
import Verif.Register.PropsAgain
import Verif.TopicLife.PropsReturn
import Verif.Reporter.PropsSender
import Verif.PubSub.PropsClosed
import Verif.Race.LockedProps
import Verif.Wire.PropsMock
import Verif.CallTree.LifeProps
import Verif.AddressBook.PropsBounded
import Verif.Wire.PropsXxx
import Verif.Mpsc.PropsKeep
import Verif.Unbounded.PropsArray
import Verif.Context.PropsKeep
import Verif.Mpsc.PropsWrap
import Verif.Where.Props
import Verif.System.PropsHops
import Verif.Accept.Props
import Verif.SLog.Props
import Verif.System.PropsClean
import Verif.Grpc.PropsClose
import Verif.Server.PropsExact
import Verif.Server.PropsCalls
import Verif.CallTree.PropsPath
import Verif.PubSub.PropsOften
import Verif.AddressBook.PropsClear
import Verif.Mpsc.PropsBlame
import Verif.Timer.PropsExact
import Verif.AddressBook.PropsRetry
import Verif.AddressBook.PropsMany
import Verif.Future.PropsChain
import Verif.TickTask.PropsServiceExact
import Verif.Events.PropsExact
import Verif.LogLib.PropsExact
import Verif.Names.PropsExact
import Verif.Tcc.PropsExact
import Verif.Custom.PropsExact
import Verif.Mgo.PropsExact
import Verif.Span.PropsExact
import Verif.Context.PropsExact
import Verif.Msg.PropsExact
import Verif.Redis.PropsExact
import Verif.AddressBook.PropsWildExact
import Verif.PubSub.PropsPubExact
import Verif.Loader.PropsExact
import Verif.Loader.PropsPanic
import Verif.Redis.PropsLast
import Verif.AddressBook.PropsLowExact
import Verif.System.PropsPrev
import Verif.System.PropsIds
/-
Prints the axioms on which the theorems of MANIFEST.json depend.
-/
#print axioms Braid.Mpsc.C01_fifo
#print axioms Braid.Mpsc.C01_exactly_once
#print axioms Braid.Mpsc.C02_no_loss
#print axioms Braid.Mpsc.C03_no_lost_wakeup
#print axioms Braid.Mpsc.C03_loop_drains
#print axioms Braid.Mpsc.C03_comes_to_rest
#print axioms Braid.Mpsc.C03_rest_drained
#print axioms Braid.Mpsc.C04_nil_means_drained_refuted
#print axioms Braid.Mpsc.C04_nil_means_drained_partial
#print axioms Braid.Mpsc.C04_blame
#print axioms Braid.Unbounded.C05_fifo
#print axioms Braid.Unbounded.C05_no_loss
#print axioms Braid.Unbounded.C06_no_stall
#print axioms Braid.Unbounded.C06_receivable
#print axioms Braid.Unbounded.C06_reader_drains
#print axioms Braid.Future.C07_started_with_first_value
#print axioms Braid.Future.C07_at_most_once
#print axioms Braid.Future.C07_all_started
#print axioms Braid.Future.C07_no_stuck
#print axioms Braid.Future.C07_observed_after_complete
#print axioms Braid.Future.C07_comes_to_rest
#print axioms Braid.Future.C07_rest_started
#print axioms Braid.Future.C07_completed_stays
#print axioms Braid.Future.C08_late_never_completed
#print axioms Braid.Future.C08_chain_refuted
#print axioms Braid.Future.C08_then_completes_partial
#print axioms Braid.Future.C08_chain_partial
#print axioms Braid.Future.C08_exact
#print axioms Braid.Future.C08_chain_exact
#print axioms Braid.Chain.C09_execute_outcome
#print axioms Braid.Chain.C09_nil_iff
#print axioms Braid.Chain.C09_first_error
#print axioms Braid.Wire.C44_message_roundtrip
#print axioms Braid.Wire.C44_header_roundtrip
#print axioms Braid.Wire.C44_req_roundtrip
#print axioms Braid.Wire.C44_res_roundtrip
#print axioms Braid.Wire.C44_encoding
#print axioms Braid.Wire.C45_size_exact
#print axioms Braid.Wire.C45_exact_fill
#print axioms Braid.Wire.C46_decode_total
#print axioms Braid.Wire.C47_header_fields
#print axioms Braid.Wire.C47_unknown_ignored
#print axioms Braid.Wire.C47_last_wins
#print axioms Braid.Wire.C47_message_fields
#print axioms Braid.Wire.C47_route_fields
#print axioms Braid.Msg.C48_req_merge_partial
#print axioms Braid.Msg.C48_res_merge_partial
#print axioms Braid.Msg.C48_undecodable
#print axioms Braid.Msg.C48_map
#print axioms Braid.Msg.C48_custom_merge_refuted
#print axioms Braid.Msg.C48_panic_exact
#print axioms Braid.Msg.C49_custom_int_partial
#print axioms Braid.Msg.C49_small_representable
#print axioms Braid.Msg.C49_wrong_value_refuted
#print axioms Braid.Msg.C49_outside
#print axioms Braid.Msg.C49_exact
#print axioms Braid.Msg.C50_header_copied_partial
#print axioms Braid.Msg.C50_header_copied_refuted
#print axioms Braid.Msg.C50_exact
#print axioms Braid.AddressBook.C32_lookup_exact
#print axioms Braid.AddressBook.C32_results
#print axioms Braid.AddressBook.C32_registered_is_found
#print axioms Braid.AddressBook.C32_unregistered_is_gone
#print axioms Braid.AddressBook.C33_load_is_sum_partial
#print axioms Braid.AddressBook.C33_load_is_sum_refuted
#print axioms Braid.AddressBook.C33_register
#print axioms Braid.AddressBook.C33_unregister
#print axioms Braid.AddressBook.C33_bounded_partial
#print axioms Braid.AddressBook.C33_overflow_refuted
#print axioms Braid.AddressBook.C34_clear_partial
#print axioms Braid.AddressBook.C34_local_lookup_refuted
#print axioms Braid.AddressBook.C34_local_exact
#print axioms Braid.AddressBook.C34_for_ever_partial
#print axioms Braid.AddressBook.C35_wildcard_least_partial
#print axioms Braid.AddressBook.C35_least_over_all
#print axioms Braid.AddressBook.C35_wildcard_succeeds
#print axioms Braid.AddressBook.C35_max_load_refuted
#print axioms Braid.AddressBook.C35_exact
#print axioms Braid.AddressBook.C36_least_loaded_partial
#print axioms Braid.AddressBook.C36_succeeds
#print axioms Braid.AddressBook.C36_registered
#print axioms Braid.AddressBook.C36_two_orders_refuted
#print axioms Braid.AddressBook.C36_any_node_refuted
#print axioms Braid.AddressBook.C36_max_load_refuted
#print axioms Braid.AddressBook.C36_place_exact
#print axioms Braid.AddressBook.C36_exact
#print axioms Braid.AddressBook.C37_success_complete_partial
#print axioms Braid.AddressBook.C37_all_or_nothing_refuted
#print axioms Braid.AddressBook.C37_fault_reported
#print axioms Braid.AddressBook.C37_unregister_complete_partial
#print axioms Braid.AddressBook.C37_unregister_stuck_refuted
#print axioms Braid.AddressBook.C37_retry_exact
#print axioms Braid.AddressBook.C37_retry_refuted
#print axioms Braid.AddressBook.C38_unique_per_node_partial
#print axioms Braid.AddressBook.C38_distinct_ids_partial
#print axioms Braid.AddressBook.C38_two_nodes_refuted
#print axioms Braid.AddressBook.C38_any_number_refuted
#print axioms Braid.AddressBook.C38_wrong_one_refuted
#print axioms Braid.DisMutex.C42_exclusion
#print axioms Braid.DisMutex.C42_lease_in_call
#print axioms Braid.DisMutex.C42_free_lock_taken
#print axioms Braid.DisMutex.C43_unlock_own
#print axioms Braid.DisMutex.C43_empty_value
#print axioms Braid.DisMutex.C43_lease_kept
#print axioms Braid.Actor.C10_one_at_a_time
#print axioms Braid.Actor.C11_in_order
#print axioms Braid.Actor.C11_at_most_once
#print axioms Braid.Actor.C12_group_count
#print axioms Braid.Actor.C12_never_negative
#print axioms Braid.Actor.C12_released_once
#print axioms Braid.Actor.C13_exit_drains_refuted
#print axioms Braid.Actor.C13_exit_drains_partial
#print axioms Braid.Actor.C13_idle_loop_partial
#print axioms Braid.Actor.C13_hidden_refuted
#print axioms Braid.Actor.C13_second_exit_crashes
#print axioms Braid.Actor.C14_accepted_is_handled_refuted
#print axioms Braid.Actor.C14_accepted_is_handled_partial
#print axioms Braid.Actor.C14_closed_refuses
#print axioms Braid.Actor.C14_refused_unchanged
#print axioms Braid.Actor.C14_comes_to_rest
#print axioms Braid.Actor.C14_rest_handled
#print axioms Braid.Reenter.C15_callbacks_on_actor_refuted
#print axioms Braid.Reenter.C15_completion_on_actor_partial
#print axioms Braid.Reenter.C15_callback_after_completion
#print axioms Braid.Reenter.C16_at_most_once
#print axioms Braid.Reenter.C16_value
#print axioms Braid.Reenter.C16_completed_at_rest
#print axioms Braid.Reenter.C16_comes_to_rest
#print axioms Braid.Reenter.C16_callback_started
#print axioms Braid.Reenter.C16_ended_loop_loses
#print axioms Braid.Reenter.C16_only_attached
#print axioms Braid.Timer.C17_zero_interval_refuted
#print axioms Braid.Timer.C17_zero_due_refuted
#print axioms Braid.Timer.C17_as_documented_partial
#print axioms Braid.Timer.C17_zero_due_partial
#print axioms Braid.Timer.C17_never_early
#print axioms Braid.Timer.C17_no_crash_partial
#print axioms Braid.Timer.C18_queued_tick_refuted
#print axioms Braid.Timer.C18_nil_ticker_refuted
#print axioms Braid.Timer.C18_bounded_partial
#print axioms Braid.Timer.C18_no_crash_partial
#print axioms Braid.Timer.C18_answered
#print axioms Braid.Timer.C18_never_waits
#print axioms Braid.Timer.C19_stop
#print axioms Braid.Timer.C19_no_crash
#print axioms Braid.Timer.C19_reset_refuted
#print axioms Braid.Timer.C19_reset_partial
#print axioms Braid.Timer.C19_ticker_agrees
#print axioms Braid.Timer.C19_reset_exact
#print axioms Braid.CallTree.C20_timeout_refuted
#print axioms Braid.CallTree.C20_nested_expiry_refuted
#print axioms Braid.CallTree.C20_tree_finished_partial
#print axioms Braid.CallTree.C20_no_error_partial
#print axioms Braid.CallTree.C20_branch_partial
#print axioms Braid.CallTree.C20_blame
#print axioms Braid.CallTree.C20_blame_no_error
#print axioms Braid.CallTree.C21_nested_refuted
#print axioms Braid.CallTree.C21_own_group_never_waits
#print axioms Braid.CallTree.C21_remote_refuted
#print axioms Braid.CallTree.C21_waits_partial
#print axioms Braid.CallTree.C21_fresh_group_is_root
#print axioms Braid.System.C22_origin
#print axioms Braid.System.C22_prev_partial
#print axioms Braid.System.C22_remote_prev_refuted
#print axioms Braid.System.C22_never_accepted
#print axioms Braid.System.C22_prev_exact
#print axioms Braid.System.C23_empty_target
#print axioms Braid.System.C23_local_id_partial
#print axioms Braid.System.C23_local_first
#print axioms Braid.System.C23_otherwise_id
#print axioms Braid.System.C23_otherwise_local_first
#print axioms Braid.System.C23_symbol_id_refuted
#print axioms Braid.System.C23_ids_exact
#print axioms Braid.System.C24_by_id_partial
#print axioms Braid.System.C24_no_effect_partial
#print axioms Braid.System.C24_by_id_history_partial
#print axioms Braid.System.C24_symbol_id
#print axioms Braid.System.C24_symbol_id_refuted
#print axioms Braid.System.C25_symbol_type
#print axioms Braid.System.C25_local_first_hops
#print axioms Braid.System.C25_wildcard_hops_unbounded
#print axioms Braid.System.C25_wildcard_one_hop
#print axioms Braid.System.C25_wildcard_ends
#print axioms Braid.System.C25_wildcard_sample_unbounded
#print axioms Braid.System.C26_same_address_refuted
#print axioms Braid.System.C26_moved_actor_refuted
#print axioms Braid.System.C26_idmap_refuted
#print axioms Braid.System.C26_cleanup_partial
#print axioms Braid.System.C26_cleanup_history_partial
#print axioms Braid.System.C26_removed_exact
#print axioms Braid.System.C26_removes_one
#print axioms Braid.System.C27_swallowed_refuted
#print axioms Braid.System.C27_swallowed_always
#print axioms Braid.System.C27_remote_failure_partial
#print axioms Braid.System.C28_refuted
#print axioms Braid.System.C28_not_implemented
#print axioms Braid.Register.C29_duplicate
#print axioms Braid.Register.C29_duplicate_only
#print axioms Braid.Register.C29_concurrent_refuted
#print axioms Braid.Register.C29_one_per_id_partial
#print axioms Braid.Register.C29_leak_refuted
#print axioms Braid.Register.C30_concurrent_refuted
#print axioms Braid.Register.C30_cleanup_refuted
#print axioms Braid.Register.C30_limit_partial
#print axioms Braid.Register.C30_bound
#print axioms Braid.Register.C30_live_partial
#print axioms Braid.Register.C30_exceeded_refuted
#print axioms Braid.Register.C31_no_limit_refuted
#print axioms Braid.Register.C31_concurrent_refuted
#print axioms Braid.Register.C31_node_unique_partial
#print axioms Braid.Register.C31_bound
#print axioms Braid.Register.C31_tight_refuted
#print axioms Braid.PubSub.C39_in_order_partial
#print axioms Braid.PubSub.C39_one_subscriber_partial
#print axioms Braid.PubSub.C39_tags
#print axioms Braid.PubSub.C39_reopened_refuted
#print axioms Braid.PubSub.C39_published
#print axioms Braid.PubSub.C39_times
#print axioms Braid.PubSub.C39_unbounded_refuted
#print axioms Braid.PubSub.C39_order_refuted
#print axioms Braid.PubSub.C40_other_channel_refuted
#print axioms Braid.PubSub.C40_crash_refuted
#print axioms Braid.PubSub.C40_delivered_partial
#print axioms Braid.PubSub.C40_somewhere_partial
#print axioms Braid.PubSub.C41_unknown_topic_refuted
#print axioms Braid.PubSub.C41_errors_partial
#print axioms Braid.PubSub.C41_exact
#print axioms Braid.Grpc.C51_bounded
#print axioms Braid.Grpc.C51_discipline
#print axioms Braid.Grpc.C51_no_leak
#print axioms Braid.Grpc.C51_gives_back
#print axioms Braid.Grpc.C52_refuted
#print axioms Braid.Grpc.C52_never_dialed
#print axioms Braid.Grpc.C52_after_call_partial
#print axioms Braid.Grpc.C52_after_use_partial
#print axioms Braid.Grpc.C53_concurrent_refuted
#print axioms Braid.Grpc.C53_one_connection_partial
#print axioms Braid.Grpc.C53_right_address
#print axioms Braid.Grpc.C53_reused
#print axioms Braid.Grpc.C53_bound
#print axioms Braid.Grpc.C53_tight_refuted
#print axioms Braid.Cron.C54_denotes_partial
#print axioms Braid.Cron.C54_exact
#print axioms Braid.Cron.C54_wrap_step_refuted
#print axioms Braid.Cron.C54_overflow_refuted
#print axioms Braid.Cron.C55_zero_step_refuted
#print axioms Braid.Cron.C55_zero_range_refuted
#print axioms Braid.Cron.C55_no_error_refuted
#print axioms Braid.Cron.C55_terminates_partial
#print axioms Braid.Cron.C55_terminates_iff
#print axioms Braid.Cron.C55_bad_step
#print axioms Braid.Errcode.C56_by_number
#print axioms Braid.Errcode.C56_equivalence
#print axioms Braid.Errcode.C56_cause
#print axioms Braid.Errcode.C56_equalError
#print axioms Braid.Errcode.C56_other_not_ok_partial
#print axioms Braid.Errcode.C56_empty_text_refuted
#print axioms Braid.Errcode.C56_empty_text_only
#print axioms Braid.Errcode.C56_others_unknow
#print axioms Braid.Errcode.C56_new
#print axioms Braid.Versions.C57_next_partial
#print axioms Braid.Versions.C57_order_refuted
#print axioms Braid.Versions.C57_skips_refuted
#print axioms Braid.Versions.C57_next_iff
#print axioms Braid.Versions.C57_newer
#print axioms Braid.Versions.C57_iterate
#print axioms Braid.Versions.C57_iterate_all_partial
#print axioms Braid.Versions.C57_strategy
#print axioms Braid.Token.C58_round_trip
#print axioms Braid.Token.C58_round_trip_partial
#print axioms Braid.Token.C58_not_utf8_refuted
#print axioms Braid.Token.C58_authentic
#print axioms Braid.Token.C58_complete
#print axioms Braid.Token.C58_forged_refuted
#print axioms Braid.Reporter.C59_accounts
#print axioms Braid.Reporter.C59_delivery
#print axioms Braid.Reporter.C59_drop_only_full
#print axioms Braid.Reporter.C59_close_delivers
#print axioms Braid.Reporter.C59_close_once
#print axioms Braid.Reporter.C59_close_returns
#print axioms Braid.Reporter.C59_sender_closed
#print axioms Braid.Reporter.C59_flush
#print axioms Braid.Reporter.C59_bad_rate_refuted
#print axioms Braid.Builder.C60_shared_refuted
#print axioms Braid.Builder.C60_shared
#print axioms Braid.Builder.C60_private_partial
#print axioms Braid.Builder.C60_other_type
#print axioms Braid.Builder.C60_id_private
#print axioms Braid.Builder.C60_type
#print axioms Braid.TickTask.C61_bound
#print axioms Braid.TickTask.C61_one_at_a_time_partial
#print axioms Braid.TickTask.C61_restarts
#print axioms Braid.TickTask.C61_disciplined_partial
#print axioms Braid.TickTask.C61_panic_refuted
#print axioms Braid.TickTask.C61_restart_refuted
#print axioms Braid.TickTask.C62_at_most_two_partial
#print axioms Braid.TickTask.C62_no_crash_partial
#print axioms Braid.TickTask.C62_disciplined_partial
#print axioms Braid.TickTask.C62_comes_to_rest
#print axioms Braid.TickTask.C62_delay_refuted
#print axioms Braid.TickTask.C62_early_refuted
#print axioms Braid.TickTask.C62_two_refuted
#print axioms Braid.TickTask.C62_unstoppable_refuted
#print axioms Braid.TickTask.C62_silent_refuted
#print axioms Braid.TickRound.C63_order
#print axioms Braid.TickRound.C63_no_service
#print axioms Braid.TickRound.C63_panic_partial
#print axioms Braid.TickRound.C63_crash_iff
#print axioms Braid.TickRound.C63_no_service_refuted
#print axioms Braid.TickRound.C63_exception_refuted
#print axioms Braid.TickRound.C63_isEnd_stays
#print axioms Braid.TimerService.C64_start
#print axioms Braid.TimerService.C64_stop
#print axioms Braid.TimerService.C64_stop_error
#print axioms Braid.TimerService.C64_all
#print axioms Braid.TimerService.C64_stoppable_partial
#print axioms Braid.TimerService.C64_replaced_refuted
#print axioms Braid.TimerService.C64_removed_runs_on
#print axioms Braid.TimerService.C64_stoppable_exact
#print axioms Braid.TimerService.C64_any_taken_refuted
#print axioms Braid.WaitGroup.C65_count_partial
#print axioms Braid.WaitGroup.C65_overflow_refuted
#print axioms Braid.WaitGroup.C65_wait
#print axioms Braid.WaitGroup.C65_returns
#print axioms Braid.WaitGroup.C65_no_panic_partial
#print axioms Braid.WaitGroup.C65_reuse_refuted
#print axioms Braid.Shutdown.C66_old_stopped_partial
#print axioms Braid.Shutdown.C66_late_actor_refuted
#print axioms Braid.Shutdown.C66_acceptor_first
#print axioms Braid.Shutdown.C66_records_partial
#print axioms Braid.Shutdown.C66_clear_refuted
#print axioms Braid.Shutdown.C66_crash_partial
#print axioms Braid.Shutdown.C66_crash_refuted
#print axioms Braid.Shutdown.C67_bound_partial
#print axioms Braid.Shutdown.C67_pending_call_refuted
#print axioms Braid.Shutdown.C67_clear_refuted
#print axioms Braid.Shutdown.C67_iff
#print axioms Braid.Events.C68_partial
#print axioms Braid.Events.C68_event_refuted
#print axioms Braid.Events.C68_name_refuted
#print axioms Braid.Events.C68_exact
#print axioms Braid.Events.C68_any_refuted
#print axioms Braid.TopicOpts.C69_create_partial
#print axioms Braid.TopicOpts.C69_rounding_partial
#print axioms Braid.TopicOpts.C69_later_partial
#print axioms Braid.TopicOpts.C69_never_refuted
#print axioms Braid.TopicOpts.C69_refuted
#print axioms Braid.TopicOpts.C69_listed
#print axioms Braid.Events.C70_register
#print axioms Braid.Events.C70_dispatch
#print axioms Braid.Events.C70_once
#print axioms Braid.Context.C71_identity
#print axioms Braid.Context.C71_value_partial
#print axioms Braid.Context.C71_nil_refuted
#print axioms Braid.Context.C71_nan_refuted
#print axioms Braid.Context.C71_deep_refuted
#print axioms Braid.Context.C71_exact
#print axioms Braid.Redis.C72_values_partial
#print axioms Braid.Redis.C72_prefix_partial
#print axioms Braid.Redis.C72_never_refuted
#print axioms Braid.Redis.C72_refuted
#print axioms Braid.Redis.C72_exact
#print axioms Braid.Files.C73_saveFile_partial
#print axioms Braid.Files.C73_writeJSON_partial
#print axioms Braid.Files.C73_refuted
#print axioms Braid.Files.C74_ext
#print axioms Braid.Files.C74_split_partial
#print axioms Braid.Files.C74_refuted
#print axioms Braid.Mgo.C75_first_partial
#print axioms Braid.Mgo.C75_later_partial
#print axioms Braid.Mgo.C75_addr_refuted
#print axioms Braid.Mgo.C75_panic_refuted
#print axioms Braid.Mgo.C75_second_refuted
#print axioms Braid.Mgo.C75_exact
#print axioms Braid.Redis.C76_effect_partial
#print axioms Braid.Redis.C76_independent_partial
#print axioms Braid.Redis.C76_order_refuted
#print axioms Braid.Redis.C76_connect_refuted
#print axioms Braid.Redis.C76_independent_refuted
#print axioms Braid.Redis.C76_shared_refuted
#print axioms Braid.Redis.C76_first_partial
#print axioms Braid.Redis.C76_exact
#print axioms Braid.Redis.C76_panic_exact
#print axioms Braid.Names.C77_funcShortName
#print axioms Braid.Names.C77_shortFile_partial
#print axioms Braid.Names.C77_root_refuted
#print axioms Braid.Names.C77_exact
#print axioms Braid.LogLib.C78_flow_partial
#print axioms Braid.LogLib.C78_no_key
#print axioms Braid.LogLib.C78_refuted
#print axioms Braid.LogLib.C78_register
#print axioms Braid.LogLib.C78_exact
#print axioms Braid.LogLib.C78_last
#print axioms Braid.LogLib.C79_log_partial
#print axioms Braid.LogLib.C79_systemLog_partial
#print axioms Braid.LogLib.C79_systemReqInfo
#print axioms Braid.LogLib.C79_fields
#print axioms Braid.LogLib.C79_systemLog_refuted
#print axioms Braid.LogLib.C79_log_refuted
#print axioms Braid.LogLib.C79_panic
#print axioms Braid.LogLib.C79_exact
#print axioms Braid.Span.C80_linked_partial
#print axioms Braid.Span.C80_others_partial
#print axioms Braid.Span.C80_caller
#print axioms Braid.Span.C80_stale_refuted
#print axioms Braid.Span.C80_exact
#print axioms Braid.Span.C81_exact
#print axioms Braid.Span.C81_partial
#print axioms Braid.Span.C81_end_first
#print axioms Braid.Span.C81_refuted
#print axioms Braid.Custom.C86_partial
#print axioms Braid.Custom.C86_refuted
#print axioms Braid.Custom.C86_accepted
#print axioms Braid.Custom.C87_partial
#print axioms Braid.Custom.C87_failure_refuted
#print axioms Braid.Custom.C87_empty_refuted
#print axioms Braid.Custom.C87_exact
#print axioms Braid.Tcc.C82_success_partial
#print axioms Braid.Tcc.C82_stuck_refuted
#print axioms Braid.Tcc.C82_refuted
#print axioms Braid.Tcc.C82_confirm_refuted
#print axioms Braid.Tcc.C83_results
#print axioms Braid.Tcc.C83_restores
#print axioms Braid.Tcc.C83_others
#print axioms Braid.Tcc.C83_effect_partial
#print axioms Braid.Tcc.C83_overlap_refuted
#print axioms Braid.Tcc.C83_overlap_exact
#print axioms Braid.Loader.C84_partial
#print axioms Braid.Loader.C84_nodes_partial
#print axioms Braid.Loader.C84_panic_refuted
#print axioms Braid.Loader.C84_failure_refuted
#print axioms Braid.Loader.C84_panic_exact
#print axioms Braid.Loader.C85_has_partial
#print axioms Braid.Loader.C85_seen
#print axioms Braid.Loader.C85_refuted
#print axioms Braid.Loader.C85_exact
#print axioms Braid.Loader.C85_for_ever_refuted
#print axioms Braid.Timer.C88_in_order
#print axioms Braid.Timer.C88_none_skipped
#print axioms Braid.Timer.C88_all
#print axioms Braid.Timer.C88_closed
#print axioms Braid.Timer.C89_stale_refuted
#print axioms Braid.Timer.C89_first_partial
#print axioms Braid.Timer.C89_reset
#print axioms Braid.Timer.C89_exact
#print axioms Braid.Logger.C90_made
#print axioms Braid.Logger.C90_written
#print axioms Braid.Logger.C91_format_refuted
#print axioms Braid.Logger.C91_shared_refuted
#print axioms Braid.Logger.C91_shown_partial
#print axioms Braid.Logger.C91_independent_partial
#print axioms Braid.Logger.C91_text
#print axioms Braid.Logger.C92_refuted
#print axioms Braid.Logger.C92_counts_partial
#print axioms Braid.Server.C93_built
#print axioms Braid.Server.C93_passed
#print axioms Braid.Server.C93_rejected
#print axioms Braid.Server.C93_recovered
#print axioms Braid.Server.C93_acceptor
#print axioms Braid.Server.C93_stream_refuted
#print axioms Braid.Server.C93_streams
#print axioms Braid.Server.C93_panic_exact
#print axioms Braid.Server.C93_handled_exact
#print axioms Braid.Server.C94_leak_refuted
#print axioms Braid.Server.C94_race_refuted
#print axioms Braid.Server.C94_calls_refuted
#print axioms Braid.Server.C94_rest_partial
#print axioms Braid.Server.C94_graceful_partial
#print axioms Braid.Server.C94_no_new_calls
#print axioms Braid.Server.C94_no_crash
#print axioms Braid.Server.C94_returns_once
#print axioms Braid.Server.C94_open_exact
#print axioms Braid.Server.C94_ends_exact
#print axioms Braid.Tracing.C95_get_span
#print axioms Braid.Tracing.C95_options
#print axioms Braid.Tracing.C96_no_tracer_refuted
#print axioms Braid.Tracing.C96_never
#print axioms Braid.Tracing.C96_untraced_refuted
#print axioms Braid.Tracing.C96_factory_refuted
#print axioms Braid.Tracing.C96_names_refuted
#print axioms Braid.Tracing.C96_traced_partial
#print axioms Braid.Tracing.C96_result
#print axioms Braid.Tracing.C96_names_partial
#print axioms Braid.Tracing.C96_own_name_partial
#print axioms Braid.Tracing.C96_other_name_refuted
#print axioms Braid.Tracing.C96_args_refuted
#print axioms Braid.Tracing.C96_args_partial
#print axioms Braid.Tracing.C97_slow_refuted
#print axioms Braid.Tracing.C97_counts_partial
#print axioms Braid.Reuse.C98_refused_refuted
#print axioms Braid.Reuse.C98_expired_refuted
#print axioms Braid.Reuse.C98_timeout_refuted
#print axioms Braid.Reuse.C98_patient_partial
#print axioms Braid.Reuse.C98_smooth_partial
#print axioms Braid.Reuse.C98_returns_partial
#print axioms Braid.Reuse.C98_rest
#print axioms Braid.Maps.C99_id_map
#print axioms Braid.Maps.C99_topic_map
#print axioms Braid.Maps.C99_channel_map
#print axioms Braid.Maps.C99_actors_partial
#print axioms Braid.Maps.C99_actors_refuted
#print axioms Braid.Maps.C99_tasks_partial
#print axioms Braid.Maps.C99_tasks_refuted
#print axioms Braid.Maps.C99_chains_partial
#print axioms Braid.Maps.C99_chains_refuted
#print axioms Braid.Maps.C99_timers_partial
#print axioms Braid.Maps.C99_timers_refuted
#print axioms Braid.Maps.C99_options_partial
#print axioms Braid.Maps.C99_shared_options_partial
#print axioms Braid.Maps.C99_options_refuted
#print axioms Braid.Maps.C99_versions_partial
#print axioms Braid.Maps.C99_versions_refuted
#print axioms Braid.Maps.C99_collections_partial
#print axioms Braid.Maps.C99_collections_refuted
#print axioms Braid.Maps.C99_no_deadlock
#print axioms Braid.Payload.C100_request
#print axioms Braid.Payload.C100_response_partial
#print axioms Braid.Payload.C100_local
#print axioms Braid.Payload.C100_by_id_partial
#print axioms Braid.Payload.C100_delivers
#print axioms Braid.Payload.C100_transparent_partial
#print axioms Braid.Payload.C100_failure_refuted
#print axioms Braid.Payload.C100_prefilled_refuted
#print axioms Braid.Payload.C100_error_never
#print axioms Braid.Payload.C100_error_refuted
#print axioms Braid.Payload.C100_two_hops_refuted
#print axioms Braid.DisMutex.C101_failed
#print axioms Braid.DisMutex.C101_taken
#print axioms Braid.DisMutex.C101_failed_partial
#print axioms Braid.DisMutex.C101_lost_refuted
#print axioms Braid.Book.C102_found_partial
#print axioms Braid.Book.C102_listed_partial
#print axioms Braid.Book.C102_register_partial
#print axioms Braid.Book.C102_unregister_partial
#print axioms Braid.Book.C102_load_partial
#print axioms Braid.Book.C102_clear_partial
#print axioms Braid.Book.C102_register_refuted
#print axioms Braid.Book.C102_unregister_refuted
#print axioms Braid.Book.C102_stale_refuted
#print axioms Braid.Book.C102_clear_refuted
#print axioms Braid.Grpc.C103_result
#print axioms Braid.Grpc.C103_at_most_once
#print axioms Braid.TopicLife.C104_published_partial
#print axioms Braid.TopicLife.C104_published_refuted
#print axioms Braid.TopicLife.C104_pub
#print axioms Braid.TopicLife.C104_ends
#print axioms Braid.TopicLife.C104_fault_reported
#print axioms Braid.TopicLife.C104_error_reasons
#print axioms Braid.TopicLife.C104_returns
#print axioms Braid.TopicLife.C104_create_silent
#print axioms Braid.TopicLife.C104_kept
#print axioms Braid.TopicLife.C104_close_partial
#print axioms Braid.TopicLife.C104_lost_refuted
#print axioms Braid.TopicLife.C104_order
#print axioms Braid.TopicLife.C104_once
#print axioms Braid.TopicLife.C104_due
#print axioms Braid.RedisOps.C105_call_partial
#print axioms Braid.RedisOps.C105_context_refuted
#print axioms Braid.RedisOps.C105_cad_refuted
#print axioms Braid.RedisOps.C105_streams_refuted
#print axioms Braid.RedisOps.C105_refuted
#print axioms Braid.RedisOps.C105_no_client
#print axioms Braid.RedisOps.C105_nil_conn
#print axioms Braid.RedisOps.C105_life
#print axioms Braid.RedisOps.C105_life_partial
#print axioms Braid.RedisOps.C105_life_refuted
#print axioms Braid.RedisOps.C106_traced_partial
#print axioms Braid.RedisOps.C106_never_refuted
#print axioms Braid.RedisOps.C106_refuted
#print axioms Braid.RedisOps.C106_key
#print axioms Braid.RedisOps.C106_name
#print axioms Braid.RedisOps.C106_del_refuted
#print axioms Braid.CallTree.C107_circle
#print axioms Braid.CallTree.C107_message
#print axioms Braid.CallTree.C107_forever
#print axioms Braid.CallTree.C107_layered_partial
#print axioms Braid.CallTree.C107_steps
#print axioms Braid.CallTree.C107_refuted
#print axioms Braid.CallTree.C107_cross_refuted
#print axioms Braid.Actor.C109_bounded
#print axioms Braid.Actor.C109_exit_returns
#print axioms Braid.Actor.C109_handled
#print axioms Braid.Actor.C109_reentry
#print axioms Braid.Actor.C109_groups
#print axioms Braid.Actor.C109_refuted
#print axioms Braid.Actor.C109_inside_refuted
#print axioms Braid.NodeOpts.C108_node
#print axioms Braid.NodeOpts.C108_weight_refuted
#print axioms Braid.NodeOpts.C108_init_refuted
#print axioms Braid.NodeOpts.C108_get_partial
#print axioms Braid.NodeOpts.C108_get_refuted
#print axioms Braid.NodeOpts.C108_client
#print axioms Braid.NodeOpts.C108_client_refuted
#print axioms Braid.NodeOpts.C108_init
#print axioms Braid.NodeOpts.C108_leak_refuted
#print axioms Braid.Share.C110_last_partial
#print axioms Braid.Share.C110_undisturbed_partial
#print axioms Braid.Share.C110_delivered
#print axioms Braid.Share.C110_overwritten
#print axioms Braid.Share.C110_reenter
#print axioms Braid.Share.C110_refuted
#print axioms Braid.Share.C111_fresh
#print axioms Braid.Share.C111_effect
#print axioms Braid.Share.C111_pointers
#print axioms Braid.Share.C111_isolated_partial
#print axioms Braid.Share.C111_separate
#print axioms Braid.Share.C111_swap
#print axioms Braid.Share.C111_swap_refuted
#print axioms Braid.Share.C111_refuted
#print axioms Braid.Share.C111_own_header_refuted
#print axioms Braid.Share.C111_reply
#print axioms Braid.Share.C111_possible
#print axioms Braid.Race.C112_queue
#print axioms Braid.Race.C112_writes
#print axioms Braid.Race.C112_only_empty
#print axioms Braid.Race.C112_open_partial
#print axioms Braid.Race.C112_refuted
#print axioms Braid.Race.C113_writes
#print axioms Braid.Race.C113_never_stopped_partial
#print axioms Braid.Race.C113_disciplined_partial
#print axioms Braid.Race.C113_state_refuted
#print axioms Braid.Race.C113_ticker_refuted
#print axioms Braid.TickTask.C114_never_started_partial
#print axioms Braid.TickTask.C114_never_ends
#print axioms Braid.TickTask.C114_exact
#print axioms Braid.TickTask.C114_refuted
#print axioms Braid.Fail.C115_nil_partial
#print axioms Braid.Fail.C115_left_partial
#print axioms Braid.Fail.C115_result
#print axioms Braid.Fail.C115_blind
#print axioms Braid.Fail.C115_goes_on
#print axioms Braid.Fail.C115_refuted
#print axioms Braid.Panic.C116_crash_exact
#print axioms Braid.Panic.C116_last
#print axioms Braid.Panic.C116_loop_exact
#print axioms Braid.Panic.C116_contained_partial
#print axioms Braid.Panic.C116_released
#print axioms Braid.Panic.C116_answers
#print axioms Braid.Panic.C116_refuted
#print axioms Braid.Timer.C117_exact
#print axioms Braid.Timer.C117_refuted
#print axioms Braid.Timer.C117_ends_partial
#print axioms Braid.Timer.C117_full_refuted
#print axioms Braid.Live.C118_found_partial
#print axioms Braid.Live.C118_reached_partial
#print axioms Braid.Live.C118_call_refuted
#print axioms Braid.Live.C118_any_refuted
#print axioms Braid.Live.C118_local_refuted
#print axioms Braid.Live.C118_owner_refuted
#print axioms Braid.Wire.C119_no_amplification
#print axioms Braid.Wire.C119_normal_form
#print axioms Braid.Wire.C120_accepted_exact
#print axioms Braid.Wire.C120_unambiguous
#print axioms Braid.Wire.C120_concatenation
#print axioms Braid.Wire.C120_wellformed_partial
#print axioms Braid.Wire.C120_malformed_refuted
#print axioms Braid.Live.C121_stopped_partial
#print axioms Braid.Live.C121_gone_partial
#print axioms Braid.Live.C121_not_reached_partial
#print axioms Braid.Live.C121_again_partial
#print axioms Braid.Live.C121_fault_refuted
#print axioms Braid.Live.C121_half_refuted
#print axioms Braid.Live.C121_owner_refuted
#print axioms Braid.Live.C121_overlap_refuted
#print axioms Braid.Live.C121_call_refuted
#print axioms Braid.Race.C122_writes
#print axioms Braid.Race.C122_only_partial
#print axioms Braid.Race.C122_sole_partial
#print axioms Braid.Race.C122_cancel_refuted
#print axioms Braid.Race.C122_reset_refuted
#print axioms Braid.Race.C122_two_refuted
#print axioms Braid.Race.C123_writes
#print axioms Braid.Race.C123_only_partial
#print axioms Braid.Race.C123_ctx_refuted
#print axioms Braid.Race.C123_returned_refuted
#print axioms Braid.Trace.C124_exact
#print axioms Braid.Trace.C124_tidy_partial
#print axioms Braid.Trace.C124_two_refuted
#print axioms Braid.Trace.C124_refuted
#print axioms Braid.Reenter.C125_deadline_partial
#print axioms Braid.Reenter.C125_not_early
#print axioms Braid.Reenter.C125_only
#print axioms Braid.Reenter.C125_default_refuted
#print axioms Braid.Reenter.C125_busy_refuted
#print axioms Braid.Reenter.C125_in_time_refuted
#print axioms Braid.Reenter.C125_timeout
#print axioms Braid.Grpc.C126_call
#print axioms Braid.Grpc.C126_call_wait_partial
#print axioms Braid.Grpc.C126_call_wait_refuted
#print axioms Braid.Register.C127_again_partial
#print axioms Braid.Register.C127_stuck_refuted
#print axioms Braid.Register.C127_refuted
#print axioms Braid.PubSub.C128_stops_partial
#print axioms Braid.PubSub.C128_process_partial
#print axioms Braid.PubSub.C128_closed_refuted
#print axioms Braid.PubSub.C128_again_refuted
#print axioms Braid.PubSub.C128_exited_refuted
#print axioms Braid.PubSub.C128_loop_refuted
#print axioms Braid.PubSub.C128_spin_refuted
#print axioms Braid.PubSub.C128_refuted
#print axioms Braid.Race.C129_future
#print axioms Braid.Race.C129_future_writes
#print axioms Braid.Race.C129_buffer_partial
#print axioms Braid.Race.C129_buffer_writes
#print axioms Braid.Race.C129_len_refuted
#print axioms Braid.Wire.C130_roundtrip
#print axioms Braid.Wire.C130_buffer
#print axioms Braid.Wire.C130_decode_total
#print axioms Braid.Wire.C130_decodes
#print axioms Braid.Wire.C130_injective
#print axioms Braid.CallTree.C131_returns
#print axioms Braid.CallTree.C131_waiter
#print axioms Braid.CallTree.C131_group_partial
#print axioms Braid.CallTree.C131_alive
#print axioms Braid.CallTree.C131_left
#print axioms Braid.CallTree.C131_forever
#print axioms Braid.CallTree.C131_steps
#print axioms Braid.CallTree.C131_leak_refuted
#print axioms Braid.Wire.C132_marshal_to
#print axioms Braid.Wire.C132_sized
#print axioms Braid.Wire.C132_append_partial
#print axioms Braid.Wire.C132_prefix
#print axioms Braid.Wire.C132_capacity_refuted
#print axioms Braid.Wire.C132_fresh
#print axioms Braid.Mpsc.C133_values
#print axioms Braid.Mpsc.C133_nodes
#print axioms Braid.Mpsc.C133_bound
#print axioms Braid.Mpsc.C133_empty
#print axioms Braid.Unbounded.C133_slots
#print axioms Braid.Unbounded.C133_backlog
#print axioms Braid.Unbounded.C133_refines
#print axioms Braid.Unbounded.C133_goes_on
#print axioms Braid.Context.C133_context_partial
#print axioms Braid.Context.C133_context_refuted
#print axioms Braid.Mpsc.C134_same_partial
#print axioms Braid.Mpsc.C134_wakeup_partial
#print axioms Braid.Mpsc.C134_count_partial
#print axioms Braid.Mpsc.C134_burst
#print axioms Braid.Mpsc.C134_wakeup_refuted
#print axioms Braid.Mpsc.C134_push_silent
#print axioms Braid.Where.C135_errcode
#print axioms Braid.Where.C135_add
#print axioms Braid.Where.C135_add_refuted
#print axioms Braid.Where.C135_trace
#print axioms Braid.Where.C135_no_trace
#print axioms Braid.Where.C135_caller_partial
#print axioms Braid.Where.C135_default_refuted
#print axioms Braid.Where.C135_method_partial
#print axioms Braid.Where.C135_caller_refuted
#print axioms Braid.Accept.C136_stack
#print axioms Braid.Accept.C136_call_exact
#print axioms Braid.Accept.C136_once
#print axioms Braid.Accept.C136_answered_partial
#print axioms Braid.Accept.C136_bad
#print axioms Braid.Accept.C136_reply
#print axioms Braid.Accept.C136_recovered
#print axioms Braid.Accept.C136_encode_exact
#print axioms Braid.Accept.C136_refuted
#print axioms Braid.SLog.C137_export
#print axioms Braid.SLog.C137_default
#print axioms Braid.SLog.C137_set_partial
#print axioms Braid.SLog.C137_own_partial
#print axioms Braid.SLog.C137_own_exported
#print axioms Braid.SLog.C137_own_refuted
#print axioms Braid.SLog.C137_nil
#print axioms Braid.SLog.C137_nil_refuted
#print axioms Braid.System.C138_exact
#print axioms Braid.System.C138_type_partial
#print axioms Braid.System.C138_symbol
#print axioms Braid.System.C138_refuted
#print axioms Braid.System.C138_panics_exact
#print axioms Braid.System.C138_panic_refuted
#print axioms Braid.Grpc.Close.C139_result
#print axioms Braid.Grpc.Close.C139_answered
#print axioms Braid.Grpc.Close.C139_left_exact
#print axioms Braid.Grpc.Close.C139_left_forever
#print axioms Braid.Grpc.Close.C139_clean_partial
#print axioms Braid.Grpc.Close.C139_unbounded_refuted
#print axioms Braid.Grpc.Close.C139_refuted
