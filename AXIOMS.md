# Axioms of the claimed theorems (output of `#print axioms`)

## none (22 theorems)

* `Asyncz.Crypto.C10_clear`
* `Asyncz.ShapeObj.C109_factory_witness`
* `Asyncz.ShapeObj.C109_msgspec_witness`
* `Asyncz.Interval.C11_dst_witness`
* `Asyncz.Interval.C11_zones`
* `Asyncz.Interval.C11_given_times`
* `Asyncz.Interval.C12_dst_witness`
* `Asyncz.Interval.C13_jitter_witness`
* `Asyncz.C14_date_trigger`
* `Asyncz.C15_dst_witness`
* `Asyncz.C16_and_empty`
* `Asyncz.C23_date_restore`
* `Asyncz.Exec.C29_escape_witness`
* `Asyncz.Hist.status_serial`
* `Asyncz.Hist.status_race_witness`
* `Asyncz.Hist.history_key`
* `Asyncz.C54_normalize`
* `Asyncz.Config.C58_none_witness`
* `Asyncz.Remote.C67_snapshot`
* `Asyncz.Pages.C72_zero`
* `Asyncz.Loops.C76_stop_then_post`
* `Asyncz.Logs.C79_level_witness`

## Classical.choice, Quot.sound, propext (477 theorems)

* `Asyncz.Memory.C01_memory_is_a_map`
* `Asyncz.Memory.C01_memory_ids_unique`
* `Asyncz.Memory.C01_memory_live_mutation`
* `Asyncz.Memory.C02_memory_due`
* `Asyncz.Memory.C02_memory_due_live_mutation`
* `Asyncz.Memory.C03_memory_next_run_time`
* `Asyncz.Memory.C03_memory_listing_order`
* `Asyncz.Memory.C04_memory_errors`
* `Asyncz.Persist.File.C04_file_errors`
* `Asyncz.Persist.Redis.C04_redis_errors`
* `Asyncz.Persist.Rows.C04_rows_errors`
* `Asyncz.Persist.File.C05_file_refines_map`
* `Asyncz.Persist.File.C06_file_update_crash_partial`
* `Asyncz.Persist.File.C06_file_add_crash_partial`
* `Asyncz.Persist.File.C06_update_can_lose_task`
* `Asyncz.Persist.File.C06_failed_add_blocks_id`
* `Asyncz.Persist.File.C06_failed_update_loses_task`
* `Asyncz.Persist.Redis.C07_redis_refines_map`
* `Asyncz.Persist.Redis.C07_redis_due_partial`
* `Asyncz.Persist.Redis.C07_pre_epoch_never_due`
* `Asyncz.Persist.Rows.C08_sql_refines_map`
* `Asyncz.Persist.Rows.C08_mongo_refines_map`
* `Asyncz.Persist.Rows.C08_sql_rounded_due_partial`
* `Asyncz.Persist.File.C09_check_task_id_exact`
* `Asyncz.Persist.File.C09_confined`
* `Asyncz.Persist.File.C09_injective`
* `Asyncz.Persist.File.C09_rejected_touches_nothing`
* `Asyncz.Cron.C100_cron_schedule`
* `Asyncz.Cron.C19_cron_terminates`
* `Asyncz.Locks.File.C44_files_released`
* `Asyncz.Call.C45_accepted`
* `Asyncz.Loops.C76_one_loop`
* `Asyncz.Pool.C78_once`
* `Asyncz.Install.C80_recorded`
* `Asyncz.Install.C80_one`
* `Asyncz.CliLife.C106_all_stopped_partial`
* `Asyncz.CliLife.C106_one_at_a_time_partial`
* `Asyncz.PoolLog.C107_in_order_partial`
* `Asyncz.PoolLog.C107_complete_partial`
* `Asyncz.PoolLog.C107_returns_partial`
* `Asyncz.PoolLog.C107_waits_witness`
* `Asyncz.PoolLog.C107_crash_witness`
* `Asyncz.PoolLog.C107_interleaved_witness`
* `Asyncz.Interval.C11_interval_first_run_calm_partial`
* `Asyncz.ListPages.C111_events`
* `Asyncz.ListPages.C111_audit_partial`
* `Asyncz.ListPages.C111_history_partial`
* `Asyncz.ListPages.C111_logs`
* `Asyncz.ListPages.C111_run_page`
* `Asyncz.ListPages.C111_event_choices`
* `Asyncz.ListPages.C111_audit_choices`
* `Asyncz.ListPages.log_blank_witness`
* `Asyncz.ListPages.ascii_lawful`
* `Asyncz.ListPages.C111_audit_record`
* `Asyncz.Sched.C112_runtime_partial`
* `Asyncz.Sched.C112_instances`
* `Asyncz.Sched.C112_home_partial`
* `Asyncz.Sched.labelled_exec`
* `Asyncz.Sched.memory_closesClean`
* `Asyncz.Sched.C112_runtime_example`
* `Asyncz.Sched.runtime_relabel_witness`
* `Asyncz.Sched.home_shared_run_witness`
* `Asyncz.Settings.C113_value_partial`
* `Asyncz.Settings.C113_raises`
* `Asyncz.Settings.C113_dict_partial`
* `Asyncz.Settings.hints_own`
* `Asyncz.Settings.secret_key_witness`
* `Asyncz.Settings.inherited_witness`
* `Asyncz.Settings.C113_example`
* `Asyncz.Sched.C114_found_partial`
* `Asyncz.Sched.C114_preview`
* `Asyncz.Sched.C114_runs_logs_partial`
* `Asyncz.Sched.C114_example`
* `Asyncz.Sched.taskPage_parts`
* `Asyncz.Asgi.C115_running_partial`
* `Asyncz.Asgi.C115_running_async_partial`
* `Asyncz.Asgi.C115_example`
* `Asyncz.Asgi.exMsgs_ok`
* `Asyncz.Asgi.C115_twice_witness`
* `Asyncz.Asgi.C115_failed_witness`
* `Asyncz.Asgi.C115_failed`
* `Asyncz.Cron.C116_field_partial`
* `Asyncz.Cron.C116_documented`
* `Asyncz.Cron.C116_refused`
* `Asyncz.Cron.compile1_iff`
* `Asyncz.Cron.C116_trailing_witness`
* `Asyncz.Sched.C117_recovery`
* `Asyncz.Sched.C117_interval`
* `Asyncz.Sched.C117_replace_witness`
* `Asyncz.Sched.C117_cron`
* `Asyncz.Sched.C117_calm_interval`
* `Asyncz.Sched.C117_calm_cron`
* `Asyncz.Remote.C119_told`
* `Asyncz.Remote.C119_success`
* `Asyncz.Remote.C119_refused`
* `Asyncz.Remote.C119_unquote`
* `Asyncz.Remote.C119_done_witness`
* `Asyncz.Remote.C119_body`
* `Asyncz.Interval.C12_interval_step_calm_partial`
* `Asyncz.Interval.C12_interval_spacing_calm_partial`
* `Asyncz.RemoteClient.C120_headers`
* `Asyncz.RemoteClient.C120_through`
* `Asyncz.RemoteClient.C120_once`
* `Asyncz.RemoteClient.C120_unreachable`
* `Asyncz.RemoteClient.C120_lookup`
* `Asyncz.RemoteClient.C120_running`
* `Asyncz.RemoteClient.C120_lost_answer_witness`
* `Asyncz.RemoteClient.C120_snapshot`
* `Asyncz.RemoteClient.C120_result`
* `Asyncz.Sched.C121_interval`
* `Asyncz.Sched.C121_cron`
* `Asyncz.Sched.C121_added_interval`
* `Asyncz.Sched.C121_added_cron`
* `Asyncz.Timeline.C122_timeline`
* `Asyncz.Timeline.C122_own_partial`
* `Asyncz.Timeline.C122_answers`
* `Asyncz.Timeline.C122_happens_partial`
* `Asyncz.Timeline.C122_same_id_witness`
* `Asyncz.Timeline.C122_paused_witness`
* `Asyncz.Timeline.C122_vanished`
* `Asyncz.Sched.C123_pass`
* `Asyncz.Sched.C123_interval`
* `Asyncz.Sched.C123_cron`
* `Asyncz.Sched.C123_added`
* `Asyncz.Sched.C123_recovered`
* `Asyncz.Sched.C123_redis_witness`
* `Asyncz.Sched.C123_none_lost`
* `Asyncz.Sched.C123_recovery`
* `Asyncz.Sched.C123_added_cron`
* `Asyncz.Sched.C123_added_date`
* `Asyncz.Sched.C123_recovered_cron`
* `Asyncz.Sched.C123_calm_interval`
* `Asyncz.Sched.C123_calm_cron`
* `Asyncz.Sched.C123_recovered_calm_interval`
* `Asyncz.Sched.C123_recovered_calm_cron`
* `Asyncz.Flow.C124_recorded_partial`
* `Asyncz.Flow.C124_interval_partial`
* `Asyncz.Flow.C124_cron_partial`
* `Asyncz.Flow.C124_relabelled_witness`
* `Asyncz.Flow.C124_stores_partial`
* `Asyncz.Flow.C124_stores_interval_partial`
* `Asyncz.Flow.C124_stores_cron_partial`
* `Asyncz.Flow.C124_result_partial`
* `Asyncz.Flow.C124_calm_interval_partial`
* `Asyncz.Flow.C124_calm_cron_partial`
* `Asyncz.Sched.C125_on_time`
* `Asyncz.Sched.C125_interval`
* `Asyncz.Sched.C125_cron`
* `Asyncz.Sched.C125_calm_interval`
* `Asyncz.Sched.C125_calm_cron`
* `Asyncz.Sched.C125_added_interval`
* `Asyncz.Sched.C125_added_cron`
* `Asyncz.Sched.C125_told`
* `Asyncz.Sched.C125_general`
* `Asyncz.Sched.C125_stores`
* `Asyncz.Sched.C125_stores_interval`
* `Asyncz.Sched.C125_stores_cron`
* `Asyncz.Sched.C125_stores_added_interval`
* `Asyncz.Sched.C125_stores_added_cron`
* `Asyncz.Cron.C126_expr_partial`
* `Asyncz.Cron.C126_unequal`
* `Asyncz.Cron.C126_field_partial`
* `Asyncz.Cron.C126_position_witness`
* `Asyncz.Cron.C126_step_witness`
* `Asyncz.Cron.C126_name_witness`
* `Asyncz.Cron.C126_position_field_witness`
* `Asyncz.Describe.C127_description_partial`
* `Asyncz.Describe.C127_zero_range_witness`
* `Asyncz.ShapeCalls.C128_load`
* `Asyncz.ShapeCalls.C128_dump_mode`
* `Asyncz.CliOut.C129_json_partial`
* `Asyncz.CliOut.C129_note_witness`
* `Asyncz.Cron.C13_cron_none_stays_partial`
* `Asyncz.Interval.C13_interval_not_after_end_calm_partial`
* `Asyncz.Cron.C13_cron_within_end_calm_partial`
* `Asyncz.Sched.C14_runs_at_most_once`
* `Asyncz.C15_or_trigger_partial`
* `Asyncz.C15_or_trigger_calm_partial`
* `Asyncz.C16_and_finds_common_partial`
* `Asyncz.C16_and_ends_partial`
* `Asyncz.Sched.C16_and_after_run_witness`
* `Asyncz.Cron.C17_C18_cron_wall_clock_partial`
* `Asyncz.Cron.C17_C18_cron_first_match_partial`
* `Asyncz.Cron.C17_C18_cron_first_match_calm_partial`
* `Asyncz.Cron.C18_cron_finds_partial`
* `Asyncz.Cron.C18_cron_finds_calm_partial`
* `Asyncz.Cron.C19_cron_progress_partial`
* `Asyncz.Cron.C19_cron_progress_calm_partial`
* `Asyncz.Cron.C20_expression_values`
* `Asyncz.Cron.C20_field_values`
* `Asyncz.Cron.C20_numeric_texts`
* `Asyncz.Cron.C21_accepted_in_range`
* `Asyncz.Cron.C21_roundtrip_partial`
* `Asyncz.Cron.C21_zero_range_witness`
* `Asyncz.Cron.C21_trailing_text_witness`
* `Asyncz.C22_or_jitter_partial`
* `Asyncz.Cron.C22_cron_jitter_partial`
* `Asyncz.Interval.C22_interval_jitter_calm_partial`
* `Asyncz.C22_or_jitter_calm_partial`
* `Asyncz.Cron.C22_cron_jitter_calm_partial`
* `Asyncz.Sched.C24_due_run_times_partial`
* `Asyncz.Sched.C24_interval_run_times_partial`
* `Asyncz.Sched.C24_cron_run_times_partial`
* `Asyncz.Sched.C24_interval_run_times_calm_partial`
* `Asyncz.TaskObj.C25_update_task`
* `Asyncz.TaskObj.C25_rejects`
* `Asyncz.Exec.C27_max_instances_partial`
* `Asyncz.Exec.C27_submission_partial`
* `Asyncz.Exec.C27_refused_partial`
* `Asyncz.Exec.C27_two_executors_witness`
* `Asyncz.Exec.C27_nested_witness`
* `Asyncz.Exec.sendTask_is_send`
* `Asyncz.Exec.C28_count_exact_partial`
* `Asyncz.Exec.C28_no_leak_partial`
* `Asyncz.Exec.C28_cancelled_blocks`
* `Asyncz.Exec.C28_entry_witness`
* `Asyncz.Exec.C28_cancelled_witness`
* `Asyncz.Sched.C28_scheduler_count`
* `Asyncz.Sched.C28_scheduler_not_refused`
* `Asyncz.Exec.C29_one_event_each_partial`
* `Asyncz.Sched.C30_nested_partial`
* `Asyncz.Sched.C30_unmatched_witness`
* `Asyncz.Sched.C30_failed_start_witness`
* `Asyncz.Sched.C30_async_nested_partial`
* `Asyncz.Sched.C30_async_return_witness`
* `Asyncz.Sched.C31_pass_partial`
* `Asyncz.Sched.C31_pass_completes`
* `Asyncz.Sched.C31_jitter_witness`
* `Asyncz.Sched.C31_raise_witness`
* `Asyncz.Sched.C32_no_early_no_twice_partial`
* `Asyncz.Sched.C32_raise_witness`
* `Asyncz.Sched.C33_timely_partial`
* `Asyncz.Sched.C33_exact_partial`
* `Asyncz.Sched.C33_forced_run_witness`
* `Asyncz.Sched.C33_raise_witness`
* `Asyncz.Sched.C34_start_partial`
* `Asyncz.Sched.C34_distinct`
* `Asyncz.Sched.C34_conflict_witness`
* `Asyncz.Sched.C36_pending_witness`
* `Asyncz.Sched.C36_pause_partial`
* `Asyncz.Sched.C36_resume`
* `Asyncz.Sched.C36_paused_not_submitted`
* `Asyncz.Sched.C36_only_due_submitted`
* `Asyncz.Sched.C37_executor_aliases`
* `Asyncz.Sched.C37_store_aliases`
* `Asyncz.Sched.C38_lookup`
* `Asyncz.Sched.C38_delete`
* `Asyncz.Sched.C38_update`
* `Asyncz.Sched.C38_reschedule`
* `Asyncz.Sched.C38_resume_pending_witness`
* `Asyncz.Sched.C38_remove_all`
* `Asyncz.Sched.C39_run_task_partial`
* `Asyncz.Sched.C39_not_found`
* `Asyncz.Sched.C39_race_witness`
* `Asyncz.Sched.C40_shutdown_partial`
* `Asyncz.Sched.C40_never_submitted_partial`
* `Asyncz.Sched.C40_memory_witness`
* `Asyncz.Sched.C40_explicit_time_witness`
* `Asyncz.Sched.C41_preview`
* `Asyncz.Sched.C41_runs_are_previewed_partial`
* `Asyncz.Sched.C41_jitter_witness`
* `Asyncz.Listing.C42_rejects`
* `Asyncz.Listing.C42_listing`
* `Asyncz.Listing.C42_next_run_time`
* `Asyncz.Sched.C42_get_tasks`
* `Asyncz.Sched.C42_scheduler`
* `Asyncz.Config.C43_setup_partial`
* `Asyncz.Config.C43_conflict_witness`
* `Asyncz.Config.C43_entries`
* `Asyncz.Config.C43_alias`
* `Asyncz.Locks.File.C44_files_exclusive_partial`
* `Asyncz.Call.C45_rejected_partial`
* `Asyncz.Call.C45_witness`
* `Asyncz.Web.gate_partial`
* `Asyncz.Web.admin_pages_gated`
* `Asyncz.Web.gate_boundary_witness`
* `Asyncz.Web.gate_websocket_witness`
* `Asyncz.Web.admin_prefix_witness`
* `Asyncz.Web.adminAllowlist_iff`
* `Asyncz.Web.addHeaders_spec`
* `Asyncz.Web.defaultHeaders_ok`
* `Asyncz.Web.admin_headers`
* `Asyncz.Web.addHeaders_capital_witness`
* `Asyncz.Web.forwarded_partial`
* `Asyncz.Web.forwarded_double_slash_witness`
* `Asyncz.Hist.history_partial`
* `Asyncz.Hist.history_dated`
* `Asyncz.Hist.history_terminal_stays`
* `Asyncz.Hist.history_execution`
* `Asyncz.Hist.history_frame`
* `Asyncz.Hist.history_frame_submission`
* `Asyncz.Hist.history_query`
* `Asyncz.Hist.runId_collision_witness`
* `Asyncz.Hist.history_clip`
* `Asyncz.Hist.history_result`
* `Asyncz.Hist.history_submitted`
* `Asyncz.Hist.C49_latest`
* `Asyncz.Hist.C49_result_origin`
* `Asyncz.Hist.history_lines`
* `Asyncz.Dash.events_partial`
* `Asyncz.Dash.logs_partial`
* `Asyncz.Dash.audit_partial`
* `Asyncz.Dash.log_coerce`
* `Asyncz.Dash.logQuery_limit_zero_witness`
* `Asyncz.Dash.auditQuery_capital_witness`
* `Asyncz.DateString.zone_partial`
* `Asyncz.DateString.local_partial`
* `Asyncz.DateString.naive_partial`
* `Asyncz.DateString.reject`
* `Asyncz.DateString.fraction_witness`
* `Asyncz.DateString.newline_witness`
* `Asyncz.Cli.store_option`
* `Asyncz.Cli.stores_map`
* `Asyncz.Cli.stores_map_partial`
* `Asyncz.Cli.stores_lost_witness`
* `Asyncz.Cli.alias_witness`
* `Asyncz.Cli.stores_default`
* `Asyncz.Shapes.register_iff`
* `Asyncz.Shapes.lookup_iff`
* `Asyncz.Cron.C56_defaults`
* `Asyncz.Cron.C56_crontab`
* `Asyncz.Cron.C56_meaning`
* `Asyncz.Cron.C56_weekday_numbers`
* `Asyncz.Sched.C57_queued_wakeup_witness`
* `Asyncz.Config.C58_defaults_partial`
* `Asyncz.Workers.C59_once_partial`
* `Asyncz.Web.signIn_partial`
* `Asyncz.Web.signIn_extra_witness`
* `Asyncz.Web.signIn_sessions`
* `Asyncz.Cli.executor_option`
* `Asyncz.Cli.executors_map`
* `Asyncz.Cli.interval_long_s_witness`
* `Asyncz.Cli.executor_types`
* `Asyncz.Cli.update_cmd`
* `Asyncz.Cli.update_cmd_refused`
* `Asyncz.Shapes.restore_iff`
* `Asyncz.Shapes.round_trip_iff`
* `Asyncz.Shapes.builtin_partial`
* `Asyncz.Shapes.custom_witness`
* `Asyncz.Remote.C65_remote_partial`
* `Asyncz.Remote.C65_exact_partial`
* `Asyncz.Remote.C65_none_dropped`
* `Asyncz.Remote.C65_now_ignored`
* `Asyncz.Remote.C65_trigger_args_dropped`
* `Asyncz.Remote.C65_slash_unreachable`
* `Asyncz.Remote.C66_token`
* `Asyncz.Remote.C66_token_admits`
* `Asyncz.Remote.C66_client`
* `Asyncz.Remote.C67_edit`
* `Asyncz.Pages.C68_page`
* `Asyncz.Pages.C68_partition`
* `Asyncz.Pages.C68_links`
* `Asyncz.Pages.C68_browse`
* `Asyncz.Pages.C68_page_limit`
* `Asyncz.Pages.C69_text`
* `Asyncz.Pages.C69_json`
* `Asyncz.Pages.C69_fields`
* `Asyncz.Pages.C69_join`
* `Asyncz.Pages.firstAppearances_unique`
* `Asyncz.Pages.C69_list_blank_witness`
* `Asyncz.Pages.C70_bulk_partial`
* `Asyncz.Pages.C70_stop`
* `Asyncz.Pages.C70_abort_witness`
* `Asyncz.Edit.C71_invalid`
* `Asyncz.Edit.C71_rejected`
* `Asyncz.Edit.C71_accepted`
* `Asyncz.Edit.C71_not_found`
* `Asyncz.Edit.C71_unchanged`
* `Asyncz.Pages.C72_interval`
* `Asyncz.Pages.C72_interval_only`
* `Asyncz.Pages.C72_cron`
* `Asyncz.Pages.C72_date`
* `Asyncz.Pages.C72_negative_accepted`
* `Asyncz.Pages.C73_limits`
* `Asyncz.Pages.C73_limit_default`
* `Asyncz.Plugins.C74_create_partial`
* `Asyncz.Plugins.C74_independent`
* `Asyncz.Plugins.C74_trigger`
* `Asyncz.Plugins.C74_add`
* `Asyncz.Plugins.C74_defaults`
* `Asyncz.Plugins.C74_kind_witness`
* `Asyncz.Plugins.C74_stale_witness`
* `Asyncz.Plugins.C74_builtin`
* `Asyncz.Decor.C75_add`
* `Asyncz.Decor.C75_decorate`
* `Asyncz.Decor.C75_same_partial`
* `Asyncz.Decor.C75_several`
* `Asyncz.Decor.C75_no_scheduler`
* `Asyncz.Decor.C75_paused_witness`
* `Asyncz.Decor.C75_replace_witness`
* `Asyncz.Decor.C75_method_witness`
* `Asyncz.Loops.C76_stopped_partial`
* `Asyncz.Loops.C76_running`
* `Asyncz.Loops.C77_app_loop`
* `Asyncz.Loops.C77_app_loop_ends`
* `Asyncz.Pool.C78_wait`
* `Asyncz.Pool.C78_loop_cut`
* `Asyncz.Logs.C79_attribution`
* `Asyncz.Logs.C79_explicit`
* `Asyncz.Logs.C79_history_partial`
* `Asyncz.Logs.C79_shared_witness`
* `Asyncz.Logs.C79_extra_none_witness`
* `Asyncz.Logs.C79_stored`
* `Asyncz.Logs.C79_run_logs`
* `Asyncz.Logs.C79_same_witness`
* `Asyncz.Logs.C79_stored_run`
* `Asyncz.Logs.C79_owner`
* `Asyncz.Logs.C79_buffer`
* `Asyncz.Install.C80_released_partial`
* `Asyncz.Install.C80_kept_witness`
* `Asyncz.Install.C80_pages_partial`
* `Asyncz.Install.C80_record`
* `Asyncz.Install.C80_category_witness`
* `Asyncz.Install.C80_text`
* `Asyncz.Install.C80_execution`
* `Asyncz.Install.C80_names`
* `Asyncz.Install.C80_app`
* `Asyncz.Deadlock.C81_no_deadlock`
* `Asyncz.Deadlock.C81_progress`
* `Asyncz.Deadlock.C82_reentrant_partial`
* `Asyncz.Sched.C83_none_lost`
* `Asyncz.Sched.C83_interval`
* `Asyncz.Sched.C83_cron`
* `Asyncz.Sched.C84_interval`
* `Asyncz.Sched.C84_cron`
* `Asyncz.Sched.C84_date`
* `Asyncz.Sched.C84_startup_delay_witness`
* `Asyncz.Sched.C85_punctual`
* `Asyncz.CliRun.C86_only_the_call_partial`
* `Asyncz.CliRun.C86_read_partial`
* `Asyncz.CliRun.C86_due_witness`
* `Asyncz.CliRun.C86_executor_witness`
* `Asyncz.CliRun.C86_shutdown_witness`
* `Asyncz.CliRun.C87_pause`
* `Asyncz.CliRun.C87_remove`
* `Asyncz.CliRun.C87_resume`
* `Asyncz.CliRun.C87_update`
* `Asyncz.CliRun.C87_add`
* `Asyncz.CliRun.C87_unknown`
* `Asyncz.Sched.C88_clock`
* `Asyncz.Sched.C88_since`
* `Asyncz.Sched.C88_counts`
* `Asyncz.Sched.C88_doctor`
* `Asyncz.Sched.C88_doctor_command`
* `Asyncz.Sched.C88_checks`
* `Asyncz.CliLoop.C89_run_partial`
* `Asyncz.CliLoop.C89_coroutine_witness`
* `Asyncz.CliLoop.C89_due_witness`
* `Asyncz.CliStart.C90_load_partial`
* `Asyncz.CliStart.C90_witness`
* `Asyncz.CliStart.C92_bootstrap`
* `Asyncz.CliStart.C92_twice_witness`
* `Asyncz.CliStart.C92_source`
* `Asyncz.Sched.C93_after_first_partial`
* `Asyncz.Sched.C93_union_partial`
* `Asyncz.Sched.C93_dates_witness`
* `Asyncz.Sched.C93_intervals_witness`
* `Asyncz.Sched.C93_start_witness`
* `Asyncz.DashWeb.C94_shown_once`
* `Asyncz.DashWeb.C94_redirects_conserve`
* `Asyncz.DashWeb.C94_fragment_witness`
* `Asyncz.DashWeb.C94_look`
* `Asyncz.DashWeb.C95_text_partial`
* `Asyncz.DashWeb.C95_injection_witness`
* `Asyncz.DashWeb.C96_links_partial`
* `Asyncz.DashWeb.C96_ids_witness`
* `Asyncz.DashWeb.C96_colon_witness`
* `Asyncz.DashWeb.C96_root_witness`
* `Asyncz.DashWeb.C96_bulk`
* `Asyncz.DashWeb.unquote_escape`
* `Asyncz.DashWeb.C97_back_partial`
* `Asyncz.DashWeb.C97_query_witness`
* `Asyncz.DashWeb.C97_open_redirect_witness`
* `Asyncz.DashWeb.C98_prefix_partial`
* `Asyncz.DashWeb.C98_proxy`
* `Asyncz.DashWeb.C98_prefix_witness`
* `Asyncz.DashWeb.normalizePrefix_isNormal`

## Quot.sound, propext (128 theorems)

* `Asyncz.Crypto.C10_roundtrip`
* `Asyncz.Crypto.C10_foreign_key`
* `Asyncz.Locks.C44_threads_exclusive`
* `Asyncz.Pool.C78_not_cancelled`
* `Asyncz.Pool.C78_workers`
* `Asyncz.CliLife.C106_orderly`
* `Asyncz.CliLife.C106_overlap_witness`
* `Asyncz.CliLife.C106_start_hook_witness`
* `Asyncz.CliLife.C106_stop_hook_witness`
* `Asyncz.CliLife.C106_ctrl_c_witness`
* `Asyncz.CliLife.C106_failed_reload_witness`
* `Asyncz.CliLife.C106_shutdown_coroutines_witness`
* `Asyncz.CliLife.C106_stays_up`
* `Asyncz.CliLife.C106_standalone`
* `Asyncz.CliLife.C106_one_shot`
* `Asyncz.ShapeObj.C108_round_trip_partial`
* `Asyncz.ShapeObj.C108_exclude_none_partial`
* `Asyncz.ShapeObj.C108_nested_witness`
* `Asyncz.ShapeObj.C108_hidden_witness`
* `Asyncz.ShapeObj.C108_none_witness`
* `Asyncz.ShapeObj.C109_required_partial`
* `Asyncz.ShapeObj.C109_default_partial`
* `Asyncz.ShapeObj.C109_hidden_witness`
* `Asyncz.Interval.C11_interval_first_run_partial`
* `Asyncz.Interval.C11_interval_wall_clock`
* `Asyncz.FileRace.readers_share_partial`
* `Asyncz.FileRace.writer_is_alone`
* `Asyncz.FileRace.writers_lose_nothing_partial`
* `Asyncz.FileRace.writers_leave_whole_record_partial`
* `Asyncz.FileRace.large_updates_and_readers_partial`
* `Asyncz.FileRace.reader_removes_added_task`
* `Asyncz.FileRace.reader_removes_large_added_task`
* `Asyncz.FileRace.reader_removes_updated_task`
* `Asyncz.FileRace.lookup_of_missing_removes_added`
* `Asyncz.FileRace.updates_mix`
* `Asyncz.Asgi.C115_turns`
* `Asyncz.Cron.lists_iff`
* `Asyncz.FileRace.C118_killed_partial`
* `Asyncz.FileRace.C118_not_killed`
* `Asyncz.FileRace.C118_lost_witness`
* `Asyncz.Interval.C12_interval_spacing_partial`
* `Asyncz.Interval.C12_interval_step_partial`
* `Asyncz.Interval.C12_interval_step_wall`
* `Asyncz.RemoteClient.C120_answer_partial`
* `Asyncz.RemoteClient.C120_documented_partial`
* `Asyncz.RemoteClient.C120_refused`
* `Asyncz.RemoteClient.C120_empty`
* `Asyncz.RemoteClient.C120_undocumented_witness`
* `Asyncz.Cron.C126_symmetric`
* `Asyncz.Cron.C126_field_symmetric`
* `Asyncz.Cron.C126_field_names`
* `Asyncz.ShapeCalls.C128_missing`
* `Asyncz.ShapeCalls.C128_own_dependency`
* `Asyncz.ShapeCalls.C128_fields`
* `Asyncz.ShapeCalls.C128_schema`
* `Asyncz.ShapeCalls.Witness.C128_type_witness`
* `Asyncz.CliOut.C129_text`
* `Asyncz.CliOut.C129_temporary`
* `Asyncz.CliOut.C129_strict`
* `Asyncz.CliOut.C129_starts`
* `Asyncz.Interval.C13_interval_not_after_end_partial`
* `Asyncz.Interval.C13_interval_none_stays_partial`
* `Asyncz.Interval.C13_dst_witness`
* `Asyncz.Sched.C15_nested_partial`
* `Asyncz.C16_and_sound_partial`
* `Asyncz.C16_and_none_of`
* `Asyncz.Interval.follows`
* `Asyncz.C16_and_hangs_witness`
* `Asyncz.Sched.C16_nested_answer`
* `Asyncz.Interval.C22_interval_jitter_partial`
* `Asyncz.Interval.C22_interval_jitter_accumulates_witness`
* `Asyncz.Interval.C23_interval_restore_witness`
* `Asyncz.Sched.C23_tree_restore_partial`
* `Asyncz.Sched.C23_tree_restore_witness`
* `Asyncz.Sched.C24_nothing_early`
* `Asyncz.TaskObj.C26_round_trip_partial`
* `Asyncz.TaskObj.C26_saveable_iff`
* `Asyncz.Listen.C35_mask`
* `Asyncz.Listen.C35_dispatch`
* `Asyncz.Listen.C35_registration`
* `Asyncz.Listen.C35_history`
* `Asyncz.Listing.C42_state`
* `Asyncz.Locks.C44_threads_released_partial`
* `Asyncz.Locks.C44_threads_raise_witness`
* `Asyncz.Web.combined_normal`
* `Asyncz.Hist.history_summary`
* `Asyncz.Shapes.bound_unique`
* `Asyncz.C54_ceil`
* `Asyncz.C54_ceil_instant_partial`
* `Asyncz.C54_fold_witness`
* `Asyncz.C54_seconds`
* `Asyncz.Interval.C55_default_start_with_timezone_partial`
* `Asyncz.Interval.C55_default_start_same_zone_partial`
* `Asyncz.Interval.C55_default_start_calm_partial`
* `Asyncz.Sched.C57_stopped_partial`
* `Asyncz.Cli.interval`
* `Asyncz.Cli.trigger_option`
* `Asyncz.Shapes.dump_exact`
* `Asyncz.Pages.C72_negative_witness`
* `Asyncz.Pages.C73_timeline`
* `Asyncz.Pages.C73_rows`
* `Asyncz.Pages.C73_next`
* `Asyncz.Pages.C73_timeline_default`
* `Asyncz.Loops.C76_native_partial`
* `Asyncz.Loops.C76_native_app`
* `Asyncz.Loops.C77_own_loop`
* `Asyncz.Loops.C77_cut_witness`
* `Asyncz.Pool.C78_waits`
* `Asyncz.Pool.C78_accepts`
* `Asyncz.Pool.C78_pool_dead`
* `Asyncz.Pool.C78_restart_witness`
* `Asyncz.Pool.C78_broken_witness`
* `Asyncz.Pool.C78_loop_wait_witness`
* `Asyncz.Pool.C78_nobody_waits`
* `Asyncz.Logs.C79_install`
* `Asyncz.Logs.C79_reinstall_partial`
* `Asyncz.Deadlock.C82_shutdown_witness`
* `Asyncz.Deadlock.C82_done_witness`
* `Asyncz.Deadlock.C82_debug_witness`
* `Asyncz.Deadlock.C82_executors_witness`
* `Asyncz.CliLoop.C89_silent_witness`
* `Asyncz.CliLoop.C89_daemon`
* `Asyncz.CliLoop.C89_daemon_function`
* `Asyncz.CliStart.C91_watch`
* `Asyncz.CliStart.C91_once`
* `Asyncz.CliStart.C91_targets`
* `Asyncz.CliStart.C91_missing_witness`
* `Asyncz.Interval.C99_interval_schedule`

## propext (62 theorems)

* `Asyncz.Persist.Rows.C08_rounding_counterexample`
* `Asyncz.ShapeObj.C108_instance`
* `Asyncz.ShapeObj.C108_msgspec_witness`
* `Asyncz.Sched.crash_at_end`
* `Asyncz.Sched.task_in_two_steps`
* `Asyncz.Sched.crash_between`
* `Asyncz.Sched.crash_after_store`
* `Asyncz.RemoteClient.C120_url`
* `Asyncz.RemoteClient.C120_make`
* `Asyncz.RemoteClient.C120_empty_url_witness`
* `Asyncz.Cron.C126_field_self`
* `Asyncz.Cron.C126_task`
* `Asyncz.ShapeCalls.C128_construct_partial`
* `Asyncz.ShapeCalls.C128_load_partial`
* `Asyncz.ShapeCalls.C128_instance`
* `Asyncz.ShapeCalls.C128_result`
* `Asyncz.ShapeCalls.C128_cause`
* `Asyncz.ShapeCalls.C128_library`
* `Asyncz.ShapeCalls.C128_dump`
* `Asyncz.ShapeCalls.C128_dump_partial`
* `Asyncz.ShapeCalls.C128_metadata_partial`
* `Asyncz.ShapeCalls.Witness.C128_name_witness`
* `Asyncz.ShapeCalls.Witness.C128_dump_witness`
* `Asyncz.ShapeCalls.Witness.C128_fields_witness`
* `Asyncz.CliOut.C129_bootstrapped`
* `Asyncz.CliOut.C129_fails`
* `Asyncz.CliOut.C129_succeeds`
* `Asyncz.Cron.C13_cron_not_after_end`
* `Asyncz.Cron.C13_cron_within_end_partial`
* `Asyncz.C15_or_total`
* `Asyncz.C16_and_none`
* `Asyncz.Sched.C16_nested_hang`
* `Asyncz.Sched.C16_nested_hang_first`
* `Asyncz.Cron.C17_gap_witness`
* `Asyncz.Cron.C17_zones`
* `Asyncz.Cron.C18_overlap_witness`
* `Asyncz.Cron.C19_clock_back_witness`
* `Asyncz.Cron.C19_end_of_calendar_witness`
* `Asyncz.Interval.C23_interval_restore_partial`
* `Asyncz.Cron.C23_cron_restore`
* `Asyncz.Sched.C24_dst_witness`
* `Asyncz.TaskObj.C26_again_partial`
* `Asyncz.TaskObj.C26_classmethod_witness`
* `Asyncz.Config.C43_running`
* `Asyncz.Locks.File.C44_shutdown_witness`
* `Asyncz.Hist.runId_clean`
* `Asyncz.Hist.history_same_run`
* `Asyncz.Dash.audit_same_id_witness`
* `Asyncz.Interval.C55_default_start_witness`
* `Asyncz.Workers.C59_shutdown_witness`
* `Asyncz.Workers.C59_crash_witness`
* `Asyncz.Workers.C59_stale_update_witness`
* `Asyncz.Workers.C59_lost_pause_witness`
* `Asyncz.Shapes.storeShape_eq`
* `Asyncz.Remote.C67_edit_not_atomic`
* `Asyncz.Loops.C76_app_loop`
* `Asyncz.Loops.C76_failed_start_witness`
* `Asyncz.Loops.C76_stale_loop_witness`
* `Asyncz.Loops.C76_native_nested_witness`
* `Asyncz.Loops.C76_native_join_witness`
* `Asyncz.Install.C80_pages_witness`
* `Asyncz.DashWeb.C97_retry_witness`
