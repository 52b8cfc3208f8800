{
 "claims": [
  {
   "property": "C01",
   "status": "proved",
   "theorems": [
    "Asyncz.Memory.C01_memory_is_a_map",
    "Asyncz.Memory.C01_memory_ids_unique",
    "Asyncz.Memory.C01_memory_live_mutation"
   ],
   "note": "refinement by induction over histories; float timestamps modelled as integer microseconds"
  },
  {
   "property": "C02",
   "status": "proved",
   "theorems": [
    "Asyncz.Memory.C02_memory_due",
    "Asyncz.Memory.C02_memory_due_live_mutation"
   ],
   "note": ""
  },
  {
   "property": "C03",
   "status": "proved",
   "theorems": [
    "Asyncz.Memory.C03_memory_next_run_time",
    "Asyncz.Memory.C03_memory_listing_order"
   ],
   "note": ""
  },
  {
   "property": "C04",
   "status": "proved",
   "theorems": [
    "Asyncz.Memory.C04_memory_errors",
    "Asyncz.Persist.File.C04_file_errors",
    "Asyncz.Persist.Redis.C04_redis_errors",
    "Asyncz.Persist.Rows.C04_rows_errors"
   ],
   "note": "file store: for histories of accepted ids and serialisable tasks; a serialisation failure is not a store error and does change the file store, see C06"
  },
  {
   "property": "C05",
   "status": "proved",
   "theorems": [
    "Asyncz.Persist.File.C05_file_refines_map"
   ],
   "note": "ties by st_ctime not modelled; pickle/AES codec abstract with a round-trip assumption"
  },
  {
   "property": "C06",
   "status": "partial",
   "theorems": [
    "Asyncz.Persist.File.C06_file_update_crash_partial",
    "Asyncz.Persist.File.C06_file_add_crash_partial",
    "Asyncz.Persist.File.C06_update_can_lose_task",
    "Asyncz.Persist.File.C06_failed_add_blocks_id",
    "Asyncz.Persist.File.C06_failed_update_loses_task"
   ],
   "note": "the property is false of the code: truncate-before-serialise loses the task, a failed add blocks the id (witness theorems); the _partial theorems say what survives"
  },
  {
   "property": "C07",
   "status": "partial",
   "theorems": [
    "Asyncz.Persist.Redis.C07_redis_refines_map",
    "Asyncz.Persist.Redis.C07_redis_due_partial",
    "Asyncz.Persist.Redis.C07_pre_epoch_never_due"
   ],
   "note": "false for run times before 1970: ZRANGEBYSCORE starts at 0 (witness theorem)"
  },
  {
   "property": "C08",
   "status": "partial",
   "theorems": [
    "Asyncz.Persist.Rows.C08_sql_refines_map",
    "Asyncz.Persist.Rows.C08_mongo_refines_map",
    "Asyncz.Persist.Rows.C08_sql_rounded_due_partial",
    "Asyncz.Persist.Rows.C08_rounding_counterexample"
   ],
   "note": "full refinement for exact run-time columns (MongoDB, SQLite); a BIGINT column that rounds breaks exact due-ness (witness)"
  },
  {
   "property": "C09",
   "status": "proved",
   "theorems": [
    "Asyncz.Persist.File.C09_check_task_id_exact",
    "Asyncz.Persist.File.C09_confined",
    "Asyncz.Persist.File.C09_injective",
    "Asyncz.Persist.File.C09_rejected_touches_nothing"
   ],
   "note": "symlinks and OS-specific reserved names not modelled"
  },
  {
   "property": "C10",
   "status": "proved",
   "theorems": [
    "Asyncz.Crypto.C10_roundtrip",
    "Asyncz.Crypto.C10_foreign_key",
    "Asyncz.Crypto.C10_clear"
   ],
   "note": "AES-CCM is an assumption (structure AEAD); proved part is the nonce framing"
  },
  {
   "property": "C100",
   "status": "proved",
   "theorems": [
    "Asyncz.Cron.C100_cron_schedule",
    "Asyncz.Cron.C19_cron_terminates"
   ],
   "note": "Total correctness; termination in every lawful zone (C19_cron_terminates)."
  },
  {
   "property": "C101",
   "status": "proved",
   "theorems": [
    "Asyncz.Locks.C44_threads_exclusive",
    "Asyncz.Locks.File.C44_files_released"
   ],
   "note": "The clauses of C44 that hold without restriction."
  },
  {
   "property": "C102",
   "status": "proved",
   "theorems": [
    "Asyncz.Call.C45_accepted"
   ],
   "note": "The half of C45 that holds without restriction."
  },
  {
   "property": "C103",
   "status": "proved",
   "theorems": [
    "Asyncz.Loops.C76_one_loop"
   ],
   "note": "The clause of C76 that holds without restriction."
  },
  {
   "property": "C104",
   "status": "proved",
   "theorems": [
    "Asyncz.Pool.C78_once",
    "Asyncz.Pool.C78_not_cancelled",
    "Asyncz.Pool.C78_workers"
   ],
   "note": "The clauses of C78 that hold without restriction."
  },
  {
   "property": "C105",
   "status": "proved",
   "theorems": [
    "Asyncz.Install.C80_recorded",
    "Asyncz.Install.C80_one"
   ],
   "note": "The clauses of C80 that hold without restriction."
  },
  {
   "property": "C106",
   "status": "partial",
   "theorems": [
    "Asyncz.CliLife.C106_orderly",
    "Asyncz.CliLife.C106_all_stopped_partial",
    "Asyncz.CliLife.C106_one_at_a_time_partial",
    "Asyncz.CliLife.C106_overlap_witness",
    "Asyncz.CliLife.C106_start_hook_witness",
    "Asyncz.CliLife.C106_stop_hook_witness",
    "Asyncz.CliLife.C106_ctrl_c_witness",
    "Asyncz.CliLife.C106_failed_reload_witness",
    "Asyncz.CliLife.C106_shutdown_coroutines_witness",
    "Asyncz.CliLife.C106_stays_up",
    "Asyncz.CliLife.C106_standalone",
    "Asyncz.CliLife.C106_one_shot"
   ],
   "note": "Proved for all runs: started once, stopped at most once, only after the stop hook. Stopped at the end unless the start hook or the last call of the stop hook fails or Ctrl+C comes while the command sleeps (then never stopped). One at a time only with a NativeAsyncIOScheduler: with an AsyncIOScheduler every reload starts the new scheduler before the old one stops; without --watch its coroutine shutdown tasks never run. With --watch or --standalone the command goes on until something fails or interrupts; with neither it starts, stops and ends."
  },
  {
   "property": "C107",
   "status": "partial",
   "theorems": [
    "Asyncz.PoolLog.C107_in_order_partial",
    "Asyncz.PoolLog.C107_complete_partial",
    "Asyncz.PoolLog.C107_returns_partial",
    "Asyncz.PoolLog.C107_waits_witness",
    "Asyncz.PoolLog.C107_crash_witness",
    "Asyncz.PoolLog.C107_interleaved_witness"
   ],
   "note": "Proved for messages the operating system writes at once, logging methods that do not raise, processes that are not killed. Otherwise the thread ends with an exception: nothing more is passed on and, with a full pipe, workers are stuck for ever. shutdown waits for all worker processes whatever wait is."
  },
  {
   "property": "C108",
   "status": "partial",
   "theorems": [
    "Asyncz.ShapeObj.C108_round_trip_partial",
    "Asyncz.ShapeObj.C108_exclude_none_partial",
    "Asyncz.ShapeObj.C108_instance",
    "Asyncz.ShapeObj.C108_nested_witness",
    "Asyncz.ShapeObj.C108_hidden_witness",
    "Asyncz.ShapeObj.C108_none_witness",
    "Asyncz.ShapeObj.C108_msgspec_witness"
   ],
   "note": "Proved for classes all of whose fields are constructor parameters and objects with plain data. False otherwise: nested objects come back as mappings, private attrs attributes and init=False fields cannot be restored, with exclude_none a None becomes the default; msgspec dumps ignore exclude_none. With exclude_none: proved if the attributes that are None have None as default."
  },
  {
   "property": "C109",
   "status": "partial",
   "theorems": [
    "Asyncz.ShapeObj.C109_required_partial",
    "Asyncz.ShapeObj.C109_default_partial",
    "Asyncz.ShapeObj.C109_factory_witness",
    "Asyncz.ShapeObj.C109_msgspec_witness",
    "Asyncz.ShapeObj.C109_hidden_witness"
   ],
   "note": "Requiredness proved for classes whose fields are all parameters, defaults for those that are values. False: factories (and required fields of Structs) show a marker object of the library; fields that are no parameters are shown like the others."
  },
  {
   "property": "C11",
   "status": "partial",
   "theorems": [
    "Asyncz.Interval.C11_interval_first_run_partial",
    "Asyncz.Interval.C11_interval_wall_clock",
    "Asyncz.Interval.C11_dst_witness",
    "Asyncz.Interval.C11_interval_first_run_calm_partial",
    "Asyncz.Interval.C11_zones",
    "Asyncz.Interval.C11_given_times"
   ],
   "note": "Proved for all fixed-offset zones (by instant) and for every lawful zone by wall clock. Zones whose offset changes violate the property; the witness theorem shows it. Also for every zone, in a period without a change of the clocks (Props/Steady.lean). C11_zones and C11_given_times: the zone in which start and end are read, and times that the clocks skip."
  },
  {
   "property": "C110",
   "status": "partial",
   "theorems": [
    "Asyncz.FileRace.readers_share_partial",
    "Asyncz.FileRace.writer_is_alone",
    "Asyncz.FileRace.writers_lose_nothing_partial",
    "Asyncz.FileRace.writers_leave_whole_record_partial",
    "Asyncz.FileRace.large_updates_and_readers_partial",
    "Asyncz.FileRace.reader_removes_added_task",
    "Asyncz.FileRace.reader_removes_large_added_task",
    "Asyncz.FileRace.reader_removes_updated_task",
    "Asyncz.FileRace.lookup_of_missing_removes_added",
    "Asyncz.FileRace.updates_mix"
   ],
   "note": "Proved: the lock is exclusive always; readers alone see the task; without readers nothing is lost and a whole record is left; records larger than the buffer can be read and updated together. False in general: the bytes are flushed after the lock is given back and a reader removes a file it cannot decode, so a reader beside an add or update removes the task; looking up a missing id removes a file added meanwhile; two updates mix their bytes."
  },
  {
   "property": "C111",
   "status": "partial",
   "theorems": [
    "Asyncz.ListPages.C111_events",
    "Asyncz.ListPages.C111_audit_partial",
    "Asyncz.ListPages.C111_history_partial",
    "Asyncz.ListPages.C111_logs",
    "Asyncz.ListPages.C111_run_page",
    "Asyncz.ListPages.C111_event_choices",
    "Asyncz.ListPages.C111_audit_choices",
    "Asyncz.ListPages.log_blank_witness",
    "Asyncz.ListPages.ascii_lawful",
    "Asyncz.ListPages.C111_audit_record"
   ],
   "note": "Proved for all recorded sequences and parameters. Partial: audit ids must be distinct (random UUIDs in the code) and run ids must not collide (C49); a task or run id that begins or ends with a blank cannot be filtered for because the pages strip the field (witness). C111_audit_record: the fields of an audit record."
  },
  {
   "property": "C112",
   "status": "partial",
   "theorems": [
    "Asyncz.Sched.C112_runtime_partial",
    "Asyncz.Sched.C112_instances",
    "Asyncz.Sched.C112_home_partial",
    "Asyncz.Sched.labelled_exec",
    "Asyncz.Sched.memory_closesClean",
    "Asyncz.Sched.C112_runtime_example",
    "Asyncz.Sched.runtime_relabel_witness",
    "Asyncz.Sched.home_shared_run_witness"
   ],
   "note": "Proved for every history of calls in which no update changes a task's store alias and no added store brings tasks with another alias; aliases are not empty. False otherwise: after update_task(store_alias=...) the task stays in its store but is counted for the other (witness). The last run on the overview is looked up by task id alone, so tasks with the same id in different stores share it (witness)."
  },
  {
   "property": "C113",
   "status": "partial",
   "theorems": [
    "Asyncz.Settings.C113_value_partial",
    "Asyncz.Settings.C113_raises",
    "Asyncz.Settings.C113_dict_partial",
    "Asyncz.Settings.hints_own",
    "Asyncz.Settings.secret_key_witness",
    "Asyncz.Settings.inherited_witness",
    "Asyncz.Settings.C113_example"
   ],
   "note": "Proved for the settings annotated in the class itself. False for inherited ones: typing.get_type_hints always fails on BaseSettings, whose method `dict` hides the builtin in the annotation dict[str, Any], so a subclass reads only its own annotations from the environment and dumps only them (inherited_witness). The texts of annotations other than a name or a subscripted name are not understood: any SECRET_KEY in the environment makes Settings() raise (secret_key_witness). Lists are read character by character. post_init and include_properties are not modelled; the environment has precedence over keyword arguments."
  },
  {
   "property": "C114",
   "status": "partial",
   "theorems": [
    "Asyncz.Sched.C114_found_partial",
    "Asyncz.Sched.C114_preview",
    "Asyncz.Sched.C114_runs_logs_partial",
    "Asyncz.Sched.C114_example",
    "Asyncz.Sched.taskPage_parts"
   ],
   "note": "The page raises (HTTP 500) for a task whose arguments cannot be written as JSON (C114_found_partial, third part). Runs are looked up by id alone, so runs of a removed task with the same id show too; no two runs may share a run id. Nobody calls the scheduler while the page is built; the HTML is not modelled."
  },
  {
   "property": "C115",
   "status": "partial",
   "theorems": [
    "Asyncz.Asgi.C115_running_partial",
    "Asyncz.Asgi.C115_running_async_partial",
    "Asyncz.Asgi.C115_turns",
    "Asyncz.Asgi.C115_example",
    "Asyncz.Asgi.exMsgs_ok",
    "Asyncz.Asgi.C115_twice_witness",
    "Asyncz.Asgi.C115_failed_witness",
    "Asyncz.Asgi.C115_failed"
   ],
   "note": "Proved for any number of applications and any messages if every startup works and none is sent to an application that is up. False otherwise: started twice, the wrapped application keeps one exit stack and the scheduler never stops; after a failed startup the next is answered with complete though the scheduler does not run. An AsyncIOScheduler stops when the event loop gets round to it. monkay's LifespanHook is taken as described in the model."
  },
  {
   "property": "C116",
   "status": "partial",
   "theorems": [
    "Asyncz.Cron.C116_field_partial",
    "Asyncz.Cron.C116_documented",
    "Asyncz.Cron.C116_refused",
    "Asyncz.Cron.compile1_iff",
    "Asyncz.Cron.lists_iff",
    "Asyncz.Cron.C116_trailing_witness"
   ],
   "note": "Exact (if and only if) for the language the code has. This is wider than the documented one: the classes for names, positions and `last` are not anchored, so text behind them is ignored (witness); `*` and numbers may be followed by a line break. On the documented language the reading is exact. ASCII only."
  },
  {
   "property": "C117",
   "status": "proved",
   "theorems": [
    "Asyncz.Sched.C117_recovery",
    "Asyncz.Sched.C117_interval",
    "Asyncz.Sched.crash_at_end",
    "Asyncz.Sched.task_in_two_steps",
    "Asyncz.Sched.crash_between",
    "Asyncz.Sched.C117_replace_witness",
    "Asyncz.Sched.crash_after_store",
    "Asyncz.Sched.C117_cron",
    "Asyncz.Sched.C117_calm_interval",
    "Asyncz.Sched.C117_calm_cron"
   ],
   "note": "Handed to the executor: what an executor had accepted but not finished dies with the process and is not repeated once the next time is stored (that is not part of the claim). `C117_replace_witness` shows why the program must not replace the task when it starts: the missed runs are skipped. For the file store, whose writes are not atomic, see C118. crash_after_store: the crash points fit together at the end of a store. C117_cron: the same for cron triggers. C117_calm_*: the same in any time zone, over a period without a change of the clocks."
  },
  {
   "property": "C118",
   "status": "partial",
   "theorems": [
    "Asyncz.FileRace.C118_killed_partial",
    "Asyncz.FileRace.C118_not_killed",
    "Asyncz.FileRace.C118_lost_witness"
   ],
   "note": "Additions and removals are all or nothing. An update truncates the file before the new content is written (and small records are written only when the file is closed): killed in between, the task is lost for good, since the next reader removes the empty file (witness, for every task). One write call is one step."
  },
  {
   "property": "C119",
   "status": "proved",
   "theorems": [
    "Asyncz.Remote.C119_told",
    "Asyncz.Remote.C119_success",
    "Asyncz.Remote.C119_refused",
    "Asyncz.Remote.C119_unquote",
    "Asyncz.Remote.C119_done_witness",
    "Asyncz.Remote.C119_body"
   ],
   "note": "The arguments read from the bodies of requests to create or update a task are not part of this property (C65 has them for the requests the client sends). C119_body: bodies that are not objects."
  },
  {
   "property": "C12",
   "status": "partial",
   "theorems": [
    "Asyncz.Interval.C12_interval_spacing_partial",
    "Asyncz.Interval.C12_interval_step_partial",
    "Asyncz.Interval.C12_dst_witness",
    "Asyncz.Interval.C12_interval_step_calm_partial",
    "Asyncz.Interval.C12_interval_spacing_calm_partial",
    "Asyncz.Interval.C12_interval_step_wall"
   ],
   "note": "Proved for all fixed-offset zones. Zones whose offset changes violate the property; the witness theorem shows it. Also for every zone, in a period without a change of the clocks (Props/Steady.lean). In every lawful zone the step is exact on the wall clock."
  },
  {
   "property": "C120",
   "status": "partial",
   "theorems": [
    "Asyncz.RemoteClient.C120_answer_partial",
    "Asyncz.RemoteClient.C120_documented_partial",
    "Asyncz.RemoteClient.C120_refused",
    "Asyncz.RemoteClient.C120_empty",
    "Asyncz.RemoteClient.C120_url",
    "Asyncz.RemoteClient.C120_make",
    "Asyncz.RemoteClient.C120_headers",
    "Asyncz.RemoteClient.C120_through",
    "Asyncz.RemoteClient.C120_once",
    "Asyncz.RemoteClient.C120_unreachable",
    "Asyncz.RemoteClient.C120_lookup",
    "Asyncz.RemoteClient.C120_running",
    "Asyncz.RemoteClient.C120_undocumented_witness",
    "Asyncz.RemoteClient.C120_empty_url_witness",
    "Asyncz.RemoteClient.C120_lost_answer_witness",
    "Asyncz.RemoteClient.C120_snapshot",
    "Asyncz.RemoteClient.C120_result"
   ],
   "note": "Partial: the code violates it for answers that are not JSON objects and for a worker that does not answer in time (witnesses). Custom transports are not modelled beyond the constructor; redirects are followed by the library. C120_snapshot and C120_result: exactly the data with all fields is a snapshot, and results are what the data says."
  },
  {
   "property": "C121",
   "status": "proved",
   "theorems": [
    "Asyncz.Sched.C121_interval",
    "Asyncz.Sched.C121_cron",
    "Asyncz.Sched.C121_added_interval",
    "Asyncz.Sched.C121_added_cron",
    "Asyncz.Sched.C117_calm_interval",
    "Asyncz.Sched.C117_calm_cron"
   ],
   "note": "For cron triggers some matching time after the latest pass must lie in the period too (else the answer after it is outside the period) and not after the end date. Also through deaths of the process (C117_calm_*)."
  },
  {
   "property": "C122",
   "status": "partial",
   "theorems": [
    "Asyncz.Timeline.C122_timeline",
    "Asyncz.Timeline.C122_own_partial",
    "Asyncz.Timeline.C122_answers",
    "Asyncz.Timeline.C122_happens_partial",
    "Asyncz.Timeline.C122_same_id_witness",
    "Asyncz.Timeline.C122_paused_witness",
    "Asyncz.Timeline.C122_vanished"
   ],
   "note": "The code violates the property for tasks with equal ids in several stores and for paused tasks (witnesses); proved if ids are unique, and for tasks that have a next run time."
  },
  {
   "property": "C123",
   "status": "partial",
   "theorems": [
    "Asyncz.Sched.C123_pass",
    "Asyncz.Sched.C123_interval",
    "Asyncz.Sched.C123_cron",
    "Asyncz.Sched.C123_added",
    "Asyncz.Sched.C123_recovered",
    "Asyncz.Sched.C123_redis_witness",
    "Asyncz.Sched.C123_none_lost",
    "Asyncz.Sched.C123_recovery",
    "Asyncz.Sched.C123_added_cron",
    "Asyncz.Sched.C123_added_date",
    "Asyncz.Sched.C123_recovered_cron",
    "Asyncz.Sched.C123_calm_interval",
    "Asyncz.Sched.C123_calm_cron",
    "Asyncz.Sched.C123_recovered_calm_interval",
    "Asyncz.Sched.C123_recovered_calm_cron"
   ],
   "note": "Proved for tasks that fit their stores (ids that a file store accepts, in Redis no times before 1970 - the code violates the property for those, witness), serialisable tasks, zones of constant offset, without jitter and coalescing; deaths between store calls (within a write of a file store see C118). C123_none_lost and C123_recovery hold for every trigger whose answers go forward, with or without coalescing; C123_calm_* in zones with clock changes, over periods without one. C123_recovered_calm_*: crashes in any time zone, over a period without a change of the clocks."
  },
  {
   "property": "C124",
   "status": "partial",
   "theorems": [
    "Asyncz.Flow.C124_recorded_partial",
    "Asyncz.Flow.C124_interval_partial",
    "Asyncz.Flow.C124_cron_partial",
    "Asyncz.Flow.C124_relabelled_witness",
    "Asyncz.Flow.C124_stores_partial",
    "Asyncz.Flow.C124_stores_interval_partial",
    "Asyncz.Flow.C124_stores_cron_partial",
    "Asyncz.Flow.C124_result_partial",
    "Asyncz.Flow.C124_calm_interval_partial",
    "Asyncz.Flow.C124_calm_cron_partial"
   ],
   "note": "Proved for any lawful store and any regular forward trigger (interval and cron in closed form), any order of ends. Missing: the task must be labelled with its own store (the code violates the property otherwise, witness), no BaseException escapes (C29), run identifiers do not collide and listeners are called one at a time (C49, where the code violates the property too); room for all runs in the history. The same over every mixture of the built-in stores (C124_stores_*). C124_result_partial: value, exception and traceback of a run that has ended, whatever the scheduler did and without room. C124_calm_*: any time zone, over a period without a change of the clocks."
  },
  {
   "property": "C125",
   "status": "proved",
   "theorems": [
    "Asyncz.Sched.C125_on_time",
    "Asyncz.Sched.C125_interval",
    "Asyncz.Sched.C125_cron",
    "Asyncz.Sched.C125_calm_interval",
    "Asyncz.Sched.C125_calm_cron",
    "Asyncz.Sched.C125_added_interval",
    "Asyncz.Sched.C125_added_cron",
    "Asyncz.Sched.C125_told",
    "Asyncz.Sched.C125_general",
    "Asyncz.Sched.C125_stores",
    "Asyncz.Sched.C125_stores_interval",
    "Asyncz.Sched.C125_stores_cron",
    "Asyncz.Sched.C125_stores_added_interval",
    "Asyncz.Sched.C125_stores_added_cron"
   ],
   "note": "Histories without forced runs and without passes that raise: the code loses the wake-up there (C33 witnesses). C125_added_*: from add_task on, in any zone over a period without a change of the clocks. C125_stores_*: the same over any mixture of the built-in stores, for tasks that fit their stores (C123)."
  },
  {
   "property": "C126",
   "status": "partial",
   "theorems": [
    "Asyncz.Cron.C126_expr_partial",
    "Asyncz.Cron.C126_unequal",
    "Asyncz.Cron.C126_symmetric",
    "Asyncz.Cron.C126_field_partial",
    "Asyncz.Cron.C126_field_self",
    "Asyncz.Cron.C126_task",
    "Asyncz.Cron.C126_position_witness",
    "Asyncz.Cron.C126_step_witness",
    "Asyncz.Cron.C126_name_witness",
    "Asyncz.Cron.C126_position_field_witness",
    "Asyncz.Cron.C126_field_symmetric",
    "Asyncz.Cron.C126_field_names"
   ],
   "note": "Exact except for the three deviations of the code, each with a witness: weekday positions raise, steps of ranges and names of fields are not compared. C126_field_symmetric and C126_field_names: for all pairs of fields, of whatever names."
  },
  {
   "property": "C127",
   "status": "partial",
   "theorems": [
    "Asyncz.Describe.C127_description_partial",
    "Asyncz.Describe.C127_zero_range_witness"
   ],
   "note": "For all nested triggers without a cron range 0-0 with a step, which is printed without its end (witness), and for abbreviations of time zones without a bracket. Fractions of a second of a date are not described."
  },
  {
   "property": "C128",
   "status": "partial",
   "theorems": [
    "Asyncz.ShapeCalls.C128_construct_partial",
    "Asyncz.ShapeCalls.C128_load_partial",
    "Asyncz.ShapeCalls.C128_load",
    "Asyncz.ShapeCalls.C128_instance",
    "Asyncz.ShapeCalls.C128_result",
    "Asyncz.ShapeCalls.C128_cause",
    "Asyncz.ShapeCalls.C128_library",
    "Asyncz.ShapeCalls.C128_dump",
    "Asyncz.ShapeCalls.C128_dump_partial",
    "Asyncz.ShapeCalls.C128_missing",
    "Asyncz.ShapeCalls.C128_own_dependency",
    "Asyncz.ShapeCalls.C128_fields",
    "Asyncz.ShapeCalls.C128_schema",
    "Asyncz.ShapeCalls.C128_metadata_partial",
    "Asyncz.ShapeCalls.Witness.C128_type_witness",
    "Asyncz.ShapeCalls.Witness.C128_name_witness",
    "Asyncz.ShapeCalls.Witness.C128_dump_witness",
    "Asyncz.ShapeCalls.Witness.C128_fields_witness",
    "Asyncz.ShapeCalls.C128_dump_mode"
   ],
   "note": "Complete for dump of the dataclass, msgspec and any shapes, missing libraries, instances, results, causes and schemas. For the other operations the code lets foreign errors through (witnesses): types that are no classes or have no name, the second attempt of PydanticShape.dump, AttrsShape.dump, and failing field inspection. C128_dump_mode: the mode of a dump."
  },
  {
   "property": "C129",
   "status": "partial",
   "theorems": [
    "Asyncz.CliOut.C129_json_partial",
    "Asyncz.CliOut.C129_note_witness",
    "Asyncz.CliOut.C129_text",
    "Asyncz.CliOut.C129_temporary",
    "Asyncz.CliOut.C129_bootstrapped",
    "Asyncz.CliOut.C129_strict",
    "Asyncz.CliOut.C129_fails",
    "Asyncz.CliOut.C129_succeeds",
    "Asyncz.CliOut.C129_starts"
   ],
   "note": "Complete but for one combination: with both --bootstrap and --store a note precedes the JSON (C129_note_witness). C129_succeeds and C129_starts: what success means and which commands start the scheduler."
  },
  {
   "property": "C13",
   "status": "partial",
   "theorems": [
    "Asyncz.Interval.C13_interval_not_after_end_partial",
    "Asyncz.Interval.C13_interval_none_stays_partial",
    "Asyncz.Interval.C13_dst_witness",
    "Asyncz.Interval.C13_jitter_witness",
    "Asyncz.Cron.C13_cron_not_after_end",
    "Asyncz.Cron.C13_cron_within_end_partial",
    "Asyncz.Cron.C13_cron_none_stays_partial",
    "Asyncz.Interval.C13_interval_not_after_end_calm_partial",
    "Asyncz.Cron.C13_cron_within_end_calm_partial"
   ],
   "note": "Interval part proved for fixed-offset zones (None-stays only without jitter); counterexamples with DST and with jitter. Cron: not after end in the comparison the code makes (all zones) and as instants (fixed-offset zones). Also for every zone, in a period without a change of the clocks (Props/Steady.lean)."
  },
  {
   "property": "C14",
   "status": "proved",
   "theorems": [
    "Asyncz.C14_date_trigger",
    "Asyncz.Sched.C14_runs_at_most_once"
   ],
   "note": "Trigger and scheduler side."
  },
  {
   "property": "C15",
   "status": "partial",
   "theorems": [
    "Asyncz.C15_or_trigger_partial",
    "Asyncz.C15_or_total",
    "Asyncz.C15_dst_witness",
    "Asyncz.C15_or_trigger_calm_partial",
    "Asyncz.Sched.C15_nested_partial"
   ],
   "note": "Proved whenever Python orders the returned times as instants (all fixed-offset zones); counterexample in the repeated DST hour. Also for every zone, in a period without a change of the clocks (Props/Steady.lean). Nested unions of the built-in triggers, of any depth, answer as one OrTrigger of all their leaves."
  },
  {
   "property": "C16",
   "status": "partial",
   "theorems": [
    "Asyncz.C16_and_sound_partial",
    "Asyncz.C16_and_none",
    "Asyncz.C16_and_none_of",
    "Asyncz.C16_and_finds_common_partial",
    "Asyncz.C16_and_ends_partial",
    "Asyncz.Interval.follows",
    "Asyncz.C16_and_hangs_witness",
    "Asyncz.C16_and_empty",
    "Asyncz.Sched.C16_and_after_run_witness",
    "Asyncz.Sched.C16_nested_answer",
    "Asyncz.Sched.C16_nested_hang",
    "Asyncz.Sched.C16_nested_hang_first"
   ],
   "note": "Soundness for all inputs in fixed-offset zones; termination whenever members follow schedules (holds before the first run); after the first run the loop hangs (proved for every number of rounds). The hang after the first run is proved for all built-in members whose next times differ. Nested triggers have at most one answer, whatever bound on the rounds is used to state it, and hang if a member hangs (Props/TrigRounds.lean)."
  },
  {
   "property": "C17",
   "status": "partial",
   "theorems": [
    "Asyncz.Cron.C17_C18_cron_wall_clock_partial",
    "Asyncz.Cron.C17_C18_cron_first_match_partial",
    "Asyncz.Cron.C17_gap_witness",
    "Asyncz.Cron.C17_C18_cron_first_match_calm_partial",
    "Asyncz.Cron.C17_zones"
   ],
   "note": "Every zone: the wall-clock value reached by the search matches every field. Fixed-offset zones: the returned instant fires. Missing: in a daylight-saving gap the code returns a time whose wall clock does not exist (witness). Also for every zone, in a period without a change of the clocks (Props/Steady.lean). C17_zones: the zone in which start and end dates are read."
  },
  {
   "property": "C18",
   "status": "partial",
   "theorems": [
    "Asyncz.Cron.C17_C18_cron_wall_clock_partial",
    "Asyncz.Cron.C17_C18_cron_first_match_partial",
    "Asyncz.Cron.C18_cron_finds_partial",
    "Asyncz.Cron.C18_overlap_witness",
    "Asyncz.Cron.C17_C18_cron_first_match_calm_partial",
    "Asyncz.Cron.C18_cron_finds_calm_partial"
   ],
   "note": "First match proved for every zone in wall-clock terms and for fixed-offset zones in instants; in a daylight-saving overlap the code skips the second occurrence (witness). Also for every zone, in a period without a change of the clocks (Props/Steady.lean)."
  },
  {
   "property": "C19",
   "status": "partial",
   "theorems": [
    "Asyncz.Cron.C19_cron_terminates",
    "Asyncz.Cron.C19_cron_progress_partial",
    "Asyncz.Cron.C19_clock_back_witness",
    "Asyncz.Cron.C19_end_of_calendar_witness",
    "Asyncz.Cron.C19_cron_progress_calm_partial"
   ],
   "note": "Termination proved in full. Progress needs a clock that does not go back (witness shows failure otherwise), fixed-offset zones. Also for every zone, in a period without a change of the clocks (Props/Steady.lean)."
  },
  {
   "property": "C20",
   "status": "proved",
   "theorems": [
    "Asyncz.Cron.C20_expression_values",
    "Asyncz.Cron.C20_field_values",
    "Asyncz.Cron.C20_numeric_texts"
   ],
   "note": ""
  },
  {
   "property": "C21",
   "status": "partial",
   "theorems": [
    "Asyncz.Cron.C21_accepted_in_range",
    "Asyncz.Cron.C21_roundtrip_partial",
    "Asyncz.Cron.C21_zero_range_witness",
    "Asyncz.Cron.C21_trailing_text_witness"
   ],
   "note": "Round trip fails for ranges ending in 0 (witness) and trailing text is accepted (witness); proved otherwise."
  },
  {
   "property": "C22",
   "status": "partial",
   "theorems": [
    "Asyncz.Interval.C22_interval_jitter_partial",
    "Asyncz.C22_or_jitter_partial",
    "Asyncz.Interval.C22_interval_jitter_accumulates_witness",
    "Asyncz.Cron.C22_cron_jitter_partial",
    "Asyncz.Interval.C22_interval_jitter_calm_partial",
    "Asyncz.C22_or_jitter_calm_partial",
    "Asyncz.Cron.C22_cron_jitter_calm_partial"
   ],
   "note": "Per-call bound proved in fixed-offset zones; the delays accumulate over runs (witness). Cron trigger: fixed-offset zones. Also for every zone, in a period without a change of the clocks (Props/Steady.lean)."
  },
  {
   "property": "C23",
   "status": "partial",
   "theorems": [
    "Asyncz.Interval.C23_interval_restore_partial",
    "Asyncz.Interval.C23_interval_restore_witness",
    "Asyncz.C23_date_restore",
    "Asyncz.Cron.C23_cron_restore",
    "Asyncz.Sched.C23_tree_restore_partial",
    "Asyncz.Sched.C23_tree_restore_witness"
   ],
   "note": "Interval triggers lose interval_size: first-run queries after restore raise AttributeError (proved for every such trigger). Combinations of any depth: restored ones answer as before except for the first call if an interval trigger is in them."
  },
  {
   "property": "C24",
   "status": "partial",
   "theorems": [
    "Asyncz.Sched.C24_due_run_times_partial",
    "Asyncz.Sched.C24_nothing_early",
    "Asyncz.Sched.C24_interval_run_times_partial",
    "Asyncz.Sched.C24_cron_run_times_partial",
    "Asyncz.Sched.C24_dst_witness",
    "Asyncz.Sched.C24_interval_run_times_calm_partial"
   ],
   "note": "Proved for every trigger that goes forward (termination, order, uniqueness), and concretely for interval and cron triggers in fixed-offset zones; the DST counterexample shows why \"in order\" fails in general. Also for every zone, in a period without a change of the clocks (Props/Steady.lean)."
  },
  {
   "property": "C25",
   "status": "proved",
   "theorems": [
    "Asyncz.TaskObj.C25_update_task",
    "Asyncz.TaskObj.C25_rejects"
   ],
   "note": "For every task, fn, scheduler and keyword arguments: accepted exactly when Accepts holds, then changes exactly what Effect says; otherwise raises and leaves every attribute alone. Objects are known by identity; truthiness of callables is assumed; iterables are not consumed by the checks (check_callable_args only takes len)."
  },
  {
   "property": "C26",
   "status": "partial",
   "theorems": [
    "Asyncz.TaskObj.C26_round_trip_partial",
    "Asyncz.TaskObj.C26_again_partial",
    "Asyncz.TaskObj.C26_saveable_iff",
    "Asyncz.TaskObj.C26_classmethod_witness"
   ],
   "note": "Round trip proved for every serialisable task whose reference leads back to its function. Missing: obj_to_ref does not check that; witness: an inherited class method is restored bound to the base class."
  },
  {
   "property": "C27",
   "status": "partial",
   "theorems": [
    "Asyncz.Exec.C27_max_instances_partial",
    "Asyncz.Exec.C27_submission_partial",
    "Asyncz.Exec.C27_refused_partial",
    "Asyncz.Exec.C27_two_executors_witness",
    "Asyncz.Exec.C27_nested_witness",
    "Asyncz.Exec.sendTask_is_send"
   ],
   "note": "Interleaving model of the reads/writes of scheduler.instances under per-executor reentrant locks. Proved when each task id always goes to one executor that does not submit from inside do_send_task; both excluded cases are real and shown by witnesses (two executors: check-then-act race; DebugExecutor: nested run not counted)."
  },
  {
   "property": "C28",
   "status": "partial",
   "theorems": [
    "Asyncz.Exec.C28_count_exact_partial",
    "Asyncz.Exec.C28_no_leak_partial",
    "Asyncz.Exec.C28_cancelled_blocks",
    "Asyncz.Exec.C28_entry_witness",
    "Asyncz.Exec.C28_cancelled_witness",
    "Asyncz.Sched.C28_scheduler_count",
    "Asyncz.Sched.C28_scheduler_not_refused"
   ],
   "note": "Count is exact whenever no call for the task is in progress, hence 0 and resubmittable when all runs have ended. Excluded: futures cancelled in a pool (callback raises, count leaks: witness), and the dict entry may stay as 0 (witness)."
  },
  {
   "property": "C29",
   "status": "partial",
   "theorems": [
    "Asyncz.Exec.C29_one_event_each_partial",
    "Asyncz.Exec.C29_escape_witness"
   ],
   "note": "Full statement for functions that return or raise Exceptions; a BaseException loses the events of the whole call (witness)."
  },
  {
   "property": "C30",
   "status": "partial",
   "theorems": [
    "Asyncz.Sched.C30_nested_partial",
    "Asyncz.Sched.C30_unmatched_witness",
    "Asyncz.Sched.C30_failed_start_witness",
    "Asyncz.Sched.C30_async_nested_partial",
    "Asyncz.Sched.C30_async_return_witness"
   ],
   "note": "Proved for every history in which start does not raise and every shutdown matches a start, for the base scheduler and for AsyncIOScheduler. The last clause (an unbalanced shutdown leaves later calls alone) is false of the code: witnesses."
  },
  {
   "property": "C31",
   "status": "partial",
   "theorems": [
    "Asyncz.Sched.C31_pass_partial",
    "Asyncz.Sched.C31_pass_completes",
    "Asyncz.Sched.C31_jitter_witness",
    "Asyncz.Sched.C31_raise_witness"
   ],
   "note": "Every store, trigger and clock; the two counterexamples (jitter, raising trigger) are the missing cases."
  },
  {
   "property": "C32",
   "status": "partial",
   "theorems": [
    "Asyncz.Sched.C32_no_early_no_twice_partial",
    "Asyncz.Sched.C32_raise_witness"
   ],
   "note": "Every history of completed passes with arbitrary other calls in between, jitter allowed, clock need not be monotone; abandoned passes are the missing case (counterexample)."
  },
  {
   "property": "C33",
   "status": "partial",
   "theorems": [
    "Asyncz.Sched.C33_timely_partial",
    "Asyncz.Sched.C33_exact_partial",
    "Asyncz.Sched.C33_forced_run_witness",
    "Asyncz.Sched.C33_raise_witness"
   ],
   "note": "Whenever a running scheduler is idle its timer is armed no later than (and, right after a pass, exactly at) the earliest stored next run time, for every history without forced runs / raising passes; the two witnesses show the code loses the wake-up after run_task(force_run) and after a pass that raises."
  },
  {
   "property": "C34",
   "status": "partial",
   "theorems": [
    "Asyncz.Sched.C34_start_partial",
    "Asyncz.Sched.C34_distinct",
    "Asyncz.Sched.C34_conflict_witness",
    "Asyncz.Sched.C36_pending_witness",
    "Asyncz.Sched.C30_failed_start_witness"
   ],
   "note": "start() moves every waiting task into its store with its first run time when names are distinct; name clashes are dropped silently (witness), a pending pause is lost (C36_pending_witness)."
  },
  {
   "property": "C35",
   "status": "proved",
   "theorems": [
    "Asyncz.Listen.C35_mask",
    "Asyncz.Listen.C35_dispatch",
    "Asyncz.Listen.C35_registration",
    "Asyncz.Listen.C35_history"
   ],
   "note": "For every list of listeners, every mask, every behaviour of the callbacks (raising, changing the registrations, dispatching) and every history. Masks are non-negative integers; str masks, which the annotation allows, would raise TypeError in dispatch_event and are outside the model."
  },
  {
   "property": "C36",
   "status": "partial",
   "theorems": [
    "Asyncz.Sched.C36_pause_partial",
    "Asyncz.Sched.C36_resume",
    "Asyncz.Sched.C36_paused_not_submitted",
    "Asyncz.Sched.C36_pending_witness",
    "Asyncz.Sched.C36_only_due_submitted"
   ],
   "note": "Pausing a task that is still pending (scheduler not started) is lost at start: witness. Even a pass that raises submits only tasks that were stored and due."
  },
  {
   "property": "C37",
   "status": "proved",
   "theorems": [
    "Asyncz.Sched.C37_executor_aliases",
    "Asyncz.Sched.C37_store_aliases"
   ],
   "note": ""
  },
  {
   "property": "C38",
   "status": "partial",
   "theorems": [
    "Asyncz.Sched.C38_lookup",
    "Asyncz.Sched.C38_delete",
    "Asyncz.Sched.C38_update",
    "Asyncz.Sched.C38_reschedule",
    "Asyncz.Sched.C36_pause_partial",
    "Asyncz.Sched.C36_resume",
    "Asyncz.Sched.C38_resume_pending_witness",
    "Asyncz.Sched.C38_remove_all"
   ],
   "note": "All calls; resume_task on a stopped scheduler can act on another pending task: witness. remove_all_tasks removes exactly the tasks of the named store or of all (of a stopped scheduler: the waiting ones only)."
  },
  {
   "property": "C39",
   "status": "partial",
   "theorems": [
    "Asyncz.Sched.C39_run_task_partial",
    "Asyncz.Sched.C39_not_found",
    "Asyncz.Sched.C39_race_witness"
   ],
   "note": "run_task as one atomic step; the code does not hold the store lock, so a concurrent pass can submit the same run time: witness."
  },
  {
   "property": "C40",
   "status": "partial",
   "theorems": [
    "Asyncz.Sched.C40_shutdown_partial",
    "Asyncz.Sched.C40_never_submitted_partial",
    "Asyncz.Sched.C40_memory_witness",
    "Asyncz.Sched.C40_explicit_time_witness"
   ],
   "note": "shutdown runs every shutdown task exactly once and nothing else, removes them, and persistent stores keep the rest; passes (even raising ones) never submit them unless somebody gives them a run time. MemoryStore.shutdown drops the rest (witness)."
  },
  {
   "property": "C41",
   "status": "partial",
   "theorems": [
    "Asyncz.Sched.C41_preview",
    "Asyncz.Sched.C41_runs_are_previewed_partial",
    "Asyncz.Sched.C41_jitter_witness"
   ],
   "note": "The preview theorem is for all triggers; that the passes then run the previewed times is proved for triggers without jitter whose next time does not depend on now. With jitter the property is false (C41_jitter_witness)."
  },
  {
   "property": "C42",
   "status": "proved",
   "theorems": [
    "Asyncz.Listing.C42_rejects",
    "Asyncz.Listing.C42_listing",
    "Asyncz.Listing.C42_next_run_time",
    "Asyncz.Listing.C42_state",
    "Asyncz.Sched.C42_get_tasks",
    "Asyncz.Sched.C42_scheduler"
   ],
   "note": "str.lower and str.strip are arbitrary functions; the texts of snapshot() are arbitrary fields."
  },
  {
   "property": "C43",
   "status": "partial",
   "theorems": [
    "Asyncz.Config.C43_running",
    "Asyncz.Config.C43_setup_partial",
    "Asyncz.Config.C43_conflict_witness",
    "Asyncz.Config.C43_entries",
    "Asyncz.Config.C43_alias"
   ],
   "note": "Read-back proved for key sets in which no key continues another after a dot; witness: with such keys a value is lost silently or setup raises. Scalar options (timezone, shape, logger) and plugin loading are not modelled. An alias that is taken is refused."
  },
  {
   "property": "C44",
   "status": "partial",
   "theorems": [
    "Asyncz.Locks.C44_threads_exclusive",
    "Asyncz.Locks.C44_threads_released_partial",
    "Asyncz.Locks.C44_threads_raise_witness",
    "Asyncz.Locks.File.C44_files_exclusive_partial",
    "Asyncz.Locks.File.C44_files_released",
    "Asyncz.Locks.File.C44_shutdown_witness"
   ],
   "note": "Mutual exclusion of thread locks in full. Release: only if the body does not raise (LockProtected/RLockProtected have no try/finally; witness). File locks: exclusive as long as no holder-side shutdown removes the lock file (witness), released in every case. POSIX flock semantics are modelled, Windows is not."
  },
  {
   "property": "C45",
   "status": "partial",
   "theorems": [
    "Asyncz.Call.C45_accepted",
    "Asyncz.Call.C45_rejected_partial",
    "Asyncz.Call.C45_witness"
   ],
   "note": "Acceptance implies binding in full, for every signature, number of arguments and keyword set, against a declarative specification of Python calls. The converse except for a keyword that has the name of an unreached positional-only parameter of a callable with **kwargs (witness). inspect.signature is taken as given."
  },
  {
   "property": "C46",
   "status": "partial",
   "theorems": [
    "Asyncz.Web.gate_partial",
    "Asyncz.Web.admin_pages_gated",
    "Asyncz.Web.gate_boundary_witness",
    "Asyncz.Web.gate_websocket_witness",
    "Asyncz.Web.admin_prefix_witness",
    "Asyncz.Web.adminAllowlist_iff"
   ],
   "note": "HTTP requests whose path lies below the mount point. Witnesses: a path that merely begins with the mount point is matched against the allow-list from its middle, websocket connections are not gated, and a URL prefix below an allow-listed one leaves the dashboard public. The allow-list is exactly the one given plus /static and /assets below a non-trivial prefix."
  },
  {
   "property": "C47",
   "status": "proved",
   "theorems": [
    "Asyncz.Web.addHeaders_spec",
    "Asyncz.Web.defaultHeaders_ok",
    "Asyncz.Web.admin_headers",
    "Asyncz.Web.addHeaders_capital_witness"
   ],
   "note": "For configured headers with distinct lower-case names, as the default ones are (defaultHeaders_ok); addHeaders_capital_witness shows the need for lower case."
  },
  {
   "property": "C48",
   "status": "partial",
   "theorems": [
    "Asyncz.Web.forwarded_partial",
    "Asyncz.Web.combined_normal",
    "Asyncz.Web.forwarded_double_slash_witness"
   ],
   "note": "The prefix starts with a slash and does not end in one, but several leading slashes are kept (witness)."
  },
  {
   "property": "C49",
   "status": "partial",
   "theorems": [
    "Asyncz.Hist.history_partial",
    "Asyncz.Hist.history_dated",
    "Asyncz.Hist.history_terminal_stays",
    "Asyncz.Hist.history_execution",
    "Asyncz.Hist.history_frame",
    "Asyncz.Hist.history_frame_submission",
    "Asyncz.Hist.history_query",
    "Asyncz.Hist.history_summary",
    "Asyncz.Hist.runId_clean",
    "Asyncz.Hist.status_serial",
    "Asyncz.Hist.runId_collision_witness",
    "Asyncz.Hist.status_race_witness",
    "Asyncz.Hist.history_clip",
    "Asyncz.Hist.history_result",
    "Asyncz.Hist.history_submitted",
    "Asyncz.Hist.C49_latest",
    "Asyncz.Hist.C49_result_origin",
    "Asyncz.Hist.history_key",
    "Asyncz.Hist.history_same_run",
    "Asyncz.Hist.history_lines"
   ],
   "note": "Every sequence of calls whose runs have distinct identifiers (runId_clean gives a sufficient condition), one call at a time; witnesses for colliding identifiers and for the unlocked read-test-write of the status. What a record tells of its task (name, callable, executor, scheduler) is learnt from the first report that has it and kept; the result fields are those of the execution report. C49_latest: the newest record of a task, if any, is what the latest query returns. C49_result_origin: a listed result is that of a report about this very run. history_key and history_same_run say what the key of a run is: task, store and instant, however the time is written. history_lines: level and number of the lines logged."
  },
  {
   "property": "C50",
   "status": "partial",
   "theorems": [
    "Asyncz.Dash.events_partial",
    "Asyncz.Dash.logs_partial",
    "Asyncz.Dash.audit_partial",
    "Asyncz.Dash.log_coerce",
    "Asyncz.Dash.logQuery_limit_zero_witness",
    "Asyncz.Dash.auditQuery_capital_witness",
    "Asyncz.Dash.audit_same_id_witness"
   ],
   "note": "For limits of at least 1 and distinct audit ids; limit=0 returns one entry (witness)."
  },
  {
   "property": "C51",
   "status": "partial",
   "theorems": [
    "Asyncz.DateString.zone_partial",
    "Asyncz.DateString.local_partial",
    "Asyncz.DateString.naive_partial",
    "Asyncz.DateString.reject",
    "Asyncz.DateString.fraction_witness",
    "Asyncz.DateString.newline_witness"
   ],
   "note": "Strings of the documented format denote the written date, time and offset, everything else is rejected, for every digit table; proved for fractions of exactly six digits or none. Missing: shorter fractions are read as a count of microseconds (fraction_witness) and a trailing newline is accepted (newline_witness)."
  },
  {
   "property": "C52",
   "status": "partial",
   "theorems": [
    "Asyncz.Cli.store_option",
    "Asyncz.Cli.stores_map",
    "Asyncz.Cli.stores_map_partial",
    "Asyncz.Cli.stores_lost_witness",
    "Asyncz.Cli.alias_witness",
    "Asyncz.Cli.stores_default"
   ],
   "note": "Each store option is parsed exactly and the resulting map is the last option per alias. Missing: two stores of one kind collapse into one (stores_lost_witness) and free aliases are refused (alias_witness). stores_default: with no store options there is exactly the in-memory default store."
  },
  {
   "property": "C53",
   "status": "proved",
   "theorems": [
    "Asyncz.Shapes.register_iff",
    "Asyncz.Shapes.lookup_iff",
    "Asyncz.Shapes.bound_unique"
   ],
   "note": "For every history of registry calls: exact conditions, results and effects of register, unregister, get, available and resolve."
  },
  {
   "property": "C54",
   "status": "partial",
   "theorems": [
    "Asyncz.C54_ceil",
    "Asyncz.C54_ceil_instant_partial",
    "Asyncz.C54_fold_witness",
    "Asyncz.C54_seconds",
    "Asyncz.C54_normalize"
   ],
   "note": "Exact by wall clock in every zone; as instants for constant offsets, since in the repeated hour of a daylight-saving change the rounded time can be an hour before the argument (witness). Binary floating point is not modelled."
  },
  {
   "property": "C55",
   "status": "partial",
   "theorems": [
    "Asyncz.Interval.C55_default_start_with_timezone_partial",
    "Asyncz.Interval.C55_default_start_same_zone_partial",
    "Asyncz.Interval.C55_default_start_witness",
    "Asyncz.Interval.C55_default_start_calm_partial"
   ],
   "note": "Holds when a timezone is given or the system and scheduler offsets agree; otherwise false (witness). Also for every zone, in a period without a change of the clocks (Props/Steady.lean)."
  },
  {
   "property": "C56",
   "status": "proved",
   "theorems": [
    "Asyncz.Cron.C56_defaults",
    "Asyncz.Cron.C56_crontab",
    "Asyncz.Cron.C56_meaning",
    "Asyncz.Cron.C56_weekday_numbers"
   ],
   "note": "All strings (ASCII blanks) and all choices of given fields. C56_weekday_numbers records that weekday 0 is Monday and 7 is rejected, unlike in crontab files."
  },
  {
   "property": "C57",
   "status": "partial",
   "theorems": [
    "Asyncz.Sched.C57_stopped_partial",
    "Asyncz.Sched.C57_queued_wakeup_witness"
   ],
   "note": "Holds from every stopped state without queued wake-up; false when add_task is called between AsyncIOScheduler.shutdown() and the loop running it (witness)."
  },
  {
   "property": "C58",
   "status": "partial",
   "theorems": [
    "Asyncz.Config.C58_defaults_partial",
    "Asyncz.Config.C58_none_witness"
   ],
   "note": "Fails for a configured mistrigger_grace_time of None: the dump drops it and the task gets the class default of 1 second (witness)."
  },
  {
   "property": "C59",
   "status": "partial",
   "theorems": [
    "Asyncz.Workers.C59_once_partial",
    "Asyncz.Workers.C59_shutdown_witness",
    "Asyncz.Workers.C59_crash_witness",
    "Asyncz.Workers.C59_stale_update_witness",
    "Asyncz.Workers.C59_lost_pause_witness"
   ],
   "note": "For every interleaving of passes and API calls (add, update, pause, resume, reschedule, delete, replace) of any number of workers, with any triggers, without a store shutdown in between, without a death or exception between handing a task over and writing it back, and without an API call that sets a time not later than those handed over or writes back a next run time read before a hand-over; the witnesses show that each of these really causes a second submission. A pause through another worker can be undone by a pass under way (C59_lost_pause_witness). run_task is not part of this model (see C39)."
  },
  {
   "property": "C60",
   "status": "partial",
   "theorems": [
    "Asyncz.Web.signIn_partial",
    "Asyncz.Web.signIn_extra_witness",
    "Asyncz.Web.signIn_sessions"
   ],
   "note": "For users whose extra data has no key named like a user field; otherwise the extra value replaces the field (witness). signIn_sessions: absent, empty and incomplete sessions."
  },
  {
   "property": "C61",
   "status": "partial",
   "theorems": [
    "Asyncz.Cli.executor_option",
    "Asyncz.Cli.executors_map",
    "Asyncz.Cli.interval",
    "Asyncz.Cli.trigger_option",
    "Asyncz.Cli.interval_long_s_witness",
    "Asyncz.Cli.executor_types"
   ],
   "note": "Characterised exactly for every string. Missing: a unit that only matches case-insensitively through Unicode (long s) raises KeyError instead of being refused."
  },
  {
   "property": "C62",
   "status": "proved",
   "theorems": [
    "Asyncz.Cli.update_cmd",
    "Asyncz.Cli.update_cmd_refused"
   ],
   "note": "Dry run leaves the task, applying changes exactly the requested attributes, the reported diff is exact. update_cmd_refused: which command lines the update command refuses, and that nothing is written then."
  },
  {
   "property": "C63",
   "status": "partial",
   "theorems": [
    "Asyncz.Shapes.restore_iff",
    "Asyncz.Shapes.round_trip_iff",
    "Asyncz.Shapes.builtin_partial",
    "Asyncz.Shapes.custom_witness",
    "Asyncz.Shapes.storeShape_eq"
   ],
   "note": "Exact condition for a record to be accepted and for a round trip; built-in shapes always round-trip while their names are not replaced. Missing: a custom class whose name attribute differs from its registered name writes records nobody can restore (custom_witness)."
  },
  {
   "property": "C64",
   "status": "proved",
   "theorems": [
    "Asyncz.Shapes.dump_exact"
   ],
   "note": "Objects with their own model_dump method are left to their library."
  },
  {
   "property": "C65",
   "status": "partial",
   "theorems": [
    "Asyncz.Remote.C65_remote_partial",
    "Asyncz.Remote.C65_exact_partial",
    "Asyncz.Remote.C65_none_dropped",
    "Asyncz.Remote.C65_now_ignored",
    "Asyncz.Remote.C65_trigger_args_dropped",
    "Asyncz.Remote.C65_slash_unreachable"
   ],
   "note": "Proved for every call whose id has no slash, whose optional texts are not empty, with no explicit None for a new task, no `now` for previews and no trigger arguments beside a trigger object; those cases are where the code violates the property (shown by the witness theorems): ids with a slash are unreachable, None is dropped, `now` is ignored. Errors: TaskLookupError, SchedulerNotRunningError, MaximumInstancesError and ValueError keep their type; others become RemoteSchedulerError; exceptions of info/instances/detail/preview are not reported as such. A result that cannot be written as JSON is reported as an error although the call took effect."
  },
  {
   "property": "C66",
   "status": "proved",
   "theorems": [
    "Asyncz.Remote.C66_token",
    "Asyncz.Remote.C66_token_admits",
    "Asyncz.Remote.C66_client"
   ],
   "note": "Every request, endpoint or not; the answer is independent of the scheduler and its state is unchanged."
  },
  {
   "property": "C67",
   "status": "proved",
   "theorems": [
    "Asyncz.Remote.C67_snapshot",
    "Asyncz.Remote.C67_edit",
    "Asyncz.Remote.C67_edit_not_atomic"
   ],
   "note": "C67_edit is an equivalence with the separate specification Edited. C67_edit_not_atomic: a refused edit may leave earlier attributes of the proxy changed."
  },
  {
   "property": "C68",
   "status": "proved",
   "theorems": [
    "Asyncz.Pages.C68_page",
    "Asyncz.Pages.C68_partition",
    "Asyncz.Pages.C68_links",
    "Asyncz.Pages.C68_browse",
    "Asyncz.Pages.C68_page_limit"
   ],
   "note": "Rows, flags, numbers and links of every page; browsing with \"next\" shows the filtered list once and in order. Beyond 10 000 pages (outside the statement) C68_page_limit shows that \"next\" repeats the page. get_task_infos is a parameter (C61/C34), blank characters/lower/int are parameters with the laws of Spec.Pages.Str.Lawful (an ASCII instance is proved lawful)."
  },
  {
   "property": "C69",
   "status": "partial",
   "theorems": [
    "Asyncz.Pages.C69_text",
    "Asyncz.Pages.C69_json",
    "Asyncz.Pages.C69_fields",
    "Asyncz.Pages.C69_join",
    "Asyncz.Pages.firstAppearances_unique",
    "Asyncz.Pages.C69_list_blank_witness"
   ],
   "note": "Proved for text, JSON and repeated fields without commas; missing: repeated fields whose text holds commas are split without removing blanks (C69_list_blank_witness)."
  },
  {
   "property": "C70",
   "status": "partial",
   "theorems": [
    "Asyncz.Pages.C70_bulk_partial",
    "Asyncz.Pages.C70_stop",
    "Asyncz.Pages.C70_abort_witness"
   ],
   "note": "Proved when each call succeeds, finds no task, or (run) meets its instance limit; any other exception aborts the rest without an audit entry: C70_stop describes it for every run, C70_abort_witness shows it."
  },
  {
   "property": "C71",
   "status": "proved",
   "theorems": [
    "Asyncz.Edit.C71_invalid",
    "Asyncz.Edit.C71_rejected",
    "Asyncz.Edit.C71_accepted",
    "Asyncz.Edit.C71_not_found",
    "Asyncz.Edit.C71_unchanged"
   ],
   "note": "Texts are any with lawful strip/lower (Str.Lawful); json.loads and float are parameters; non-finite floats are left out; argument objects are compared by ==."
  },
  {
   "property": "C72",
   "status": "partial",
   "theorems": [
    "Asyncz.Pages.C72_interval",
    "Asyncz.Pages.C72_interval_only",
    "Asyncz.Pages.C72_cron",
    "Asyncz.Pages.C72_date",
    "Asyncz.Pages.C72_zero",
    "Asyncz.Pages.C72_negative_accepted",
    "Asyncz.Pages.C72_negative_witness"
   ],
   "note": "Missing: the last clause fails, negative intervals are accepted (C72_negative_accepted) and make get_run_times run without end (C72_negative_witness; with Python datetimes until OverflowError at year 1)."
  },
  {
   "property": "C73",
   "status": "proved",
   "theorems": [
    "Asyncz.Pages.C73_timeline",
    "Asyncz.Pages.C73_rows",
    "Asyncz.Pages.C73_next",
    "Asyncz.Pages.C73_limits",
    "Asyncz.Pages.C73_limit_default",
    "Asyncz.Pages.C73_timeline_default"
   ],
   "note": "Previews are parameters (preview_task_runs is C17/C29). C73_timeline_default: the numbers of the timeline page, with defaults and bounds."
  },
  {
   "property": "C74",
   "status": "partial",
   "theorems": [
    "Asyncz.Plugins.C74_create_partial",
    "Asyncz.Plugins.C74_independent",
    "Asyncz.Plugins.C74_trigger",
    "Asyncz.Plugins.C74_add",
    "Asyncz.Plugins.C74_defaults",
    "Asyncz.Plugins.C74_kind_witness",
    "Asyncz.Plugins.C74_stale_witness",
    "Asyncz.Plugins.C74_builtin"
   ],
   "note": "Every history. Missing: after a TypeError a second use of the alias returns an instance of the wrong kind, and a new target of a used alias is ignored (witnesses). Starting the part added to a running scheduler is not part of this model."
  },
  {
   "property": "C75",
   "status": "partial",
   "theorems": [
    "Asyncz.Decor.C75_add",
    "Asyncz.Decor.C75_decorate",
    "Asyncz.Decor.C75_same_partial",
    "Asyncz.Decor.C75_several",
    "Asyncz.Decor.C75_no_scheduler",
    "Asyncz.Decor.C75_paused_witness",
    "Asyncz.Decor.C75_replace_witness",
    "Asyncz.Decor.C75_method_witness"
   ],
   "note": "All options. Missing: next_run_time=None does not pause a decorated task, replace_existing is ignored, a callable without attributes raises after the task was added (witnesses). Pydantic type checks of Task.__init__ are not modelled (update_task repeats them)."
  },
  {
   "property": "C76",
   "status": "partial",
   "theorems": [
    "Asyncz.Loops.C76_one_loop",
    "Asyncz.Loops.C76_stopped_partial",
    "Asyncz.Loops.C76_running",
    "Asyncz.Loops.C76_app_loop",
    "Asyncz.Loops.C76_failed_start_witness",
    "Asyncz.Loops.C76_stale_loop_witness",
    "Asyncz.Loops.C76_native_partial",
    "Asyncz.Loops.C76_native_app",
    "Asyncz.Loops.C76_native_nested_witness",
    "Asyncz.Loops.C76_native_join_witness",
    "Asyncz.Loops.C76_stop_then_post"
   ],
   "note": "At most one thread in every history of an AsyncIOScheduler; none when stopped unless a start failed (witness: the thread is left). NativeAsyncIOScheduler: for starts that are not nested (witness of the leak, and of the join that never returns)."
  },
  {
   "property": "C77",
   "status": "partial",
   "theorems": [
    "Asyncz.Loops.C77_own_loop",
    "Asyncz.Loops.C77_app_loop",
    "Asyncz.Loops.C77_app_loop_ends",
    "Asyncz.Loops.C77_cut_witness"
   ],
   "note": "Application loop: exact count in every turn. Isolated loop: exactly the coroutines that never suspend end; the code abandons the others (witness)."
  },
  {
   "property": "C78",
   "status": "partial",
   "theorems": [
    "Asyncz.Pool.C78_once",
    "Asyncz.Pool.C78_not_cancelled",
    "Asyncz.Pool.C78_waits",
    "Asyncz.Pool.C78_wait",
    "Asyncz.Pool.C78_accepts",
    "Asyncz.Pool.C78_workers",
    "Asyncz.Pool.C78_pool_dead",
    "Asyncz.Pool.C78_loop_cut",
    "Asyncz.Pool.C78_restart_witness",
    "Asyncz.Pool.C78_broken_witness",
    "Asyncz.Pool.C78_loop_wait_witness",
    "Asyncz.Pool.C78_nobody_waits"
   ],
   "note": "Every history: exactly once, order, workers, waiting. The last clause and waiting of the AsyncIOExecutor are false of the code: C78_pool_dead and C78_loop_cut say so for every history. Functions of a default-executor thread that go on after their future was cancelled are not modelled."
  },
  {
   "property": "C79",
   "status": "partial",
   "theorems": [
    "Asyncz.Logs.C79_attribution",
    "Asyncz.Logs.C79_explicit",
    "Asyncz.Logs.C79_history_partial",
    "Asyncz.Logs.C79_shared_witness",
    "Asyncz.Logs.C79_extra_none_witness",
    "Asyncz.Logs.C79_stored",
    "Asyncz.Logs.C79_install",
    "Asyncz.Logs.C79_reinstall_partial",
    "Asyncz.Logs.C79_level_witness",
    "Asyncz.Logs.C79_run_logs",
    "Asyncz.Logs.C79_same_witness",
    "Asyncz.Logs.C79_stored_run",
    "Asyncz.Logs.C79_owner",
    "Asyncz.Logs.C79_buffer"
   ],
   "note": "Attribution over histories requires that each dictionary of extra data is used with one task's logger and names no task itself (C79_shared_witness shows the code is wrong otherwise); capture after reinstallation requires that no later level is below the first (C79_level_witness); the page shows entries up to equality of time, level, logger and message (C79_same_witness). Python's logging dispatch is modelled by the levels of logger and handler only. C79_owner: the task a record is attributed to. C79_buffer: what the handler keeps."
  },
  {
   "property": "C80",
   "status": "partial",
   "theorems": [
    "Asyncz.Install.C80_recorded",
    "Asyncz.Install.C80_one",
    "Asyncz.Install.C80_released_partial",
    "Asyncz.Install.C80_kept_witness",
    "Asyncz.Install.C80_pages_partial",
    "Asyncz.Install.C80_pages_witness",
    "Asyncz.Install.C80_record",
    "Asyncz.Install.C80_category_witness",
    "Asyncz.Install.C80_text",
    "Asyncz.Install.C80_execution",
    "Asyncz.Install.C80_names",
    "Asyncz.Install.C80_app"
   ],
   "note": "Recording exactly once and the isolation of user listeners are proved for all histories. A scheduler is released only if the dashboard was never installed for it (C80_kept_witness: otherwise the code keeps it for ever); the pages read the right storage only if all installations name the same one (C80_pages_witness). User callbacks that change registrations during dispatch are covered by C35 only. C80_execution: the fields of the record written for an execution. C80_names: the names of the kinds of events. C80_app: what creating the app subscribes."
  },
  {
   "property": "C81",
   "status": "proved",
   "theorems": [
    "Asyncz.Deadlock.C81_no_deadlock",
    "Asyncz.Deadlock.C81_progress"
   ],
   "note": "All programs, schedules and exceptions. Data are abstracted to nondeterminism (an over-approximation). Waited workers only report runs (their functions do not call the scheduler): the hypothesis WorkersReport. Locks of logging, queues, databases and the dashboard storages are not modelled."
  },
  {
   "property": "C82",
   "status": "partial",
   "theorems": [
    "Asyncz.Deadlock.C82_reentrant_partial",
    "Asyncz.Deadlock.C82_shutdown_witness",
    "Asyncz.Deadlock.C82_done_witness",
    "Asyncz.Deadlock.C82_debug_witness",
    "Asyncz.Deadlock.C82_executors_witness"
   ],
   "note": "Proved when no call waits for workers, executors run functions and callbacks elsewhere, and callbacks do not need the set of executors. Without any of these the code deadlocks: four witnesses."
  },
  {
   "property": "C83",
   "status": "proved",
   "theorems": [
    "Asyncz.Sched.C83_none_lost",
    "Asyncz.Sched.C83_interval",
    "Asyncz.Sched.C83_cron"
   ],
   "note": "C83_none_lost: any lawful store and any regular forward trigger, coalescing or not. C83_interval and C83_cron: run times reported by the passes are exactly the closed-form set, for tasks that do not coalesce."
  },
  {
   "property": "C84",
   "status": "proved",
   "theorems": [
    "Asyncz.Sched.C84_interval",
    "Asyncz.Sched.C84_cron",
    "Asyncz.Sched.C84_date",
    "Asyncz.Sched.C84_startup_delay_witness"
   ],
   "note": "Composition of the trigger, store, start and pass models. Schedulers with a lock path are excluded in the statement when tasks wait for start: the witness shows what their startup delay does."
  },
  {
   "property": "C85",
   "status": "proved",
   "theorems": [
    "Asyncz.Sched.C85_punctual"
   ],
   "note": "Forced runs and raising passes are excluded in the statement because the code loses the wake-up then (C33_forced_run_witness, C33_raise_witness)."
  },
  {
   "property": "C86",
   "status": "partial",
   "theorems": [
    "Asyncz.CliRun.C86_only_the_call_partial",
    "Asyncz.CliRun.C86_read_partial",
    "Asyncz.CliRun.C86_due_witness",
    "Asyncz.CliRun.C86_executor_witness",
    "Asyncz.CliRun.C86_shutdown_witness"
   ],
   "note": "Proved when nothing is due and no shutdown task is stored; otherwise false: `asyncz list` submits due tasks, deletes due tasks whose executor is not 'default', and runs and deletes shutdown tasks (witnesses)."
  },
  {
   "property": "C87",
   "status": "proved",
   "theorems": [
    "Asyncz.CliRun.C87_pause",
    "Asyncz.CliRun.C87_remove",
    "Asyncz.CliRun.C87_resume",
    "Asyncz.CliRun.C87_update",
    "Asyncz.CliRun.C87_add",
    "Asyncz.CliRun.C87_unknown"
   ],
   "note": "For stores that keep their data when closed (SQL, MongoDB: `mixedDurable`), tasks that are no shutdown tasks, and new run times that have not come before the command ends."
  },
  {
   "property": "C88",
   "status": "proved",
   "theorems": [
    "Asyncz.Sched.C88_clock",
    "Asyncz.Sched.C88_since",
    "Asyncz.Sched.C88_counts",
    "Asyncz.Sched.C88_doctor",
    "Asyncz.Sched.C88_doctor_command",
    "Asyncz.Sched.C88_checks"
   ],
   "note": "For every reachable state of the scheduler model extended with the start time. The five checks of doctor one by one (C88_checks)."
  },
  {
   "property": "C89",
   "status": "partial",
   "theorems": [
    "Asyncz.CliLoop.C89_run_partial",
    "Asyncz.CliLoop.C89_coroutine_witness",
    "Asyncz.CliLoop.C89_silent_witness",
    "Asyncz.CliLoop.C89_due_witness",
    "Asyncz.CliLoop.C89_daemon",
    "Asyncz.CliLoop.C89_daemon_function"
   ],
   "note": "Proved: the command ends after one round; functions and coroutines that never suspend are run to their end by `asyncz run`, due functions too. False otherwise: coroutines that suspend are abandoned, due coroutines never entered, no outcome is ever reported (witnesses). In a loop that goes on every coroutine is ended and reported (C89_daemon). C89_daemon_function: a plain function is reported in the second round of a loop that goes on."
  },
  {
   "property": "C90",
   "status": "partial",
   "theorems": [
    "Asyncz.CliStart.C90_load_partial",
    "Asyncz.CliStart.C90_witness"
   ],
   "note": "The claim is false of the code: every non-empty list of jobs fails with nothing added (witness, for all lists); the empty list is loaded."
  },
  {
   "property": "C91",
   "status": "proved",
   "theorems": [
    "Asyncz.CliStart.C91_watch",
    "Asyncz.CliStart.C91_once",
    "Asyncz.CliStart.C91_targets",
    "Asyncz.CliStart.C91_missing_witness"
   ],
   "note": "As stated; C91_once needs all watched files to be present. C91_missing_witness shows the consequence that a missing file makes every poll reload."
  },
  {
   "property": "C92",
   "status": "proved",
   "theorems": [
    "Asyncz.CliStart.C92_bootstrap",
    "Asyncz.CliStart.C92_twice_witness",
    "Asyncz.CliStart.C92_source"
   ],
   "note": "As stated. C92_twice_witness: a scheduler class without get_scheduler is instantiated twice by one load."
  },
  {
   "property": "C93",
   "status": "partial",
   "theorems": [
    "Asyncz.Sched.C93_after_first_partial",
    "Asyncz.Sched.C93_union_partial",
    "Asyncz.Sched.C93_dates_witness",
    "Asyncz.Sched.C93_intervals_witness",
    "Asyncz.Sched.C93_start_witness"
   ],
   "note": "Proved for unions of cron triggers without start date, of any depth, in zones of constant offset, for every history of passes; after the first run also with dates among the members. False otherwise: of several dates only the earliest is run; of several intervals only the shortest counts after the first run; a member's start date is ignored after the first run."
  },
  {
   "property": "C94",
   "status": "proved",
   "theorems": [
    "Asyncz.DashWeb.C94_shown_once",
    "Asyncz.DashWeb.C94_redirects_conserve",
    "Asyncz.DashWeb.C94_fragment_witness",
    "Asyncz.DashWeb.C94_look"
   ],
   "note": "Proved for all sequences of requests to the routed controllers. For the redirecting controllers, which exist but are not routed: conservation as long as no fragment or sign-in comes next, with a counterexample otherwise. A request that ends in an exception is taken not to save the session. C94_look: the colour and icon of each level."
  },
  {
   "property": "C95",
   "status": "partial",
   "theorems": [
    "Asyncz.DashWeb.C95_text_partial",
    "Asyncz.DashWeb.C95_injection_witness"
   ],
   "note": "Proved for texts without '<'. False otherwise: nothing is escaped; any tag without a colon given as the callable of a new task becomes a tag of the response."
  },
  {
   "property": "C96",
   "status": "partial",
   "theorems": [
    "Asyncz.DashWeb.C96_links_partial",
    "Asyncz.DashWeb.C96_ids_witness",
    "Asyncz.DashWeb.C96_colon_witness",
    "Asyncz.DashWeb.C96_root_witness",
    "Asyncz.DashWeb.C96_bulk",
    "Asyncz.DashWeb.unquote_escape"
   ],
   "note": "Proved for plain ids at any mount point of at least one segment. False for the id 'create' (details), ids with '/', '?', '#', '%', ids that look like a URL with a scheme, and at the root, where details and edit links lead to another host. C96_bulk: the bulk links. unquote_escape: escapes in paths."
  },
  {
   "property": "C97",
   "status": "partial",
   "theorems": [
    "Asyncz.DashWeb.C97_back_partial",
    "Asyncz.DashWeb.C97_retry_witness",
    "Asyncz.DashWeb.C97_query_witness",
    "Asyncz.DashWeb.C97_open_redirect_witness"
   ],
   "note": "Proved for paths without '&', '#', '%', '+' and a first attempt that succeeds. False otherwise: a failed attempt forgets the target, special characters are cut or decoded, the query string is lost, and any address given as `next` is followed (open redirect)."
  },
  {
   "property": "C98",
   "status": "partial",
   "theorems": [
    "Asyncz.DashWeb.C98_prefix_partial",
    "Asyncz.DashWeb.C98_proxy",
    "Asyncz.DashWeb.C98_prefix_witness",
    "Asyncz.DashWeb.normalizePrefix_isNormal"
   ],
   "note": "Proved for normal prefixes, also end to end behind a trusted proxy. False if the root path ends with the mount point's text by itself, for nested mounts without a root path, and for a setting made of slashes."
  },
  {
   "property": "C99",
   "status": "proved",
   "theorems": [
    "Asyncz.Interval.C99_interval_schedule"
   ],
   "note": "The chain of answers in full, for every number of calls."
  }
 ]
}