# Design: a Lean 4 model of dymmond/asyncz

Layout (all under `lean/Verif/`):

* `Model/*.lean`  executable model; every definition cites the file and lines in /repo it models and says where it simplifies;
* `Spec/*.lean`   small independent specifications the theorems are stated against (some short ones stand beside their theorems in `Props`);
* `Lemmas/*.lean` helper lemmas;
* `Props/*.lean`  the property theorems and, beside each, an example that meets the hypotheses, and counterexamples (`*_witness`) where the code violates the property.

A theorem whose name ends in `_partial` proves part of its property; the full statement is in properties.jsonl and what is
missing is said below. Where the property as a user would state it is false of the code, the gap is a theorem too.

## Trusted base

* Lean 4.33.0's kernel (every module is replayed by the gate). No axioms are added. Axioms the claimed theorems depend on
  (list per theorem in AXIOMS.md): 22 theorems: none; 477 theorems: Classical.choice, Quot.sound, propext; 128 theorems: Quot.sound, propext; 62 theorems: propext.
* The hand translation Python -> Lean (nothing is run). Exceptions are values, mutation is state passing, `while` loops are
  structural or fuelled recursion with the fuel shown sufficient (or divergence shown for every fuel).
* The specifications: `Spec/*.lean` and the definitions used in the statements of the theorems.
* The seeded bugs in seeded/LOG.jsonl: each was applied to a scratch copy, and the theorems that then failed are listed.

## Modelled code

| Model | Code in /repo/asyncz |
|---|---|
| Time, Calendar | `utils.py` (normalize, datetime_ceil, astimezone, timestamps), Python's proleptic Gregorian calendar; time zones are any function from instants to offsets with the laws of PEP 495 |
| DateString | `utils.py` to_datetime on texts: the regular expression as a backtracking matcher |
| CallArgs | `utils.py` check_callable_args |
| Trigger, SchedTrigger | `triggers/{interval,date,shutdown,combination,base}.py` with jitter, end dates, saving and restoring |
| Cron, CronParse | `triggers/cron/*`: search, fields, expressions, text forms, from_crontab, `__getstate__`/`__setstate__` |
| TaskObj | `tasks/base.py`, `tasks/types.py`: update_task, serialisation, obj_to_ref/ref_to_obj |
| Memory, Persist, Crypto, Shapes | `stores/*.py` (memory, file with crash points, redis, sqlalchemy, mongo), encryption, envelopes, `shapes/registry.py`, `shapes/base.py`, dump of `shapes/builtins.py` |
| Locks, Workers | `locks.py`, `file_locking.py` (POSIX), passes of several processes over one store |
| Executor | `executors/{base,pool,process_pool,asyncio,debug}.py`: run_task, send_task, instance counting as an interleaving of reads and writes |
| Scheduler, SchedApi, Listeners, Listing, Config | `schedulers/base.py`, `schedulers/asyncio.py`, `events/*`: all public calls, passes, timer and wake-up, start/shutdown nesting, listeners, listings, configuration |
| Cli | `cli/_parsers.py`, `cli/utils.py`, `cli/commands/{add,update,start}.py` option handling |
| History, Dashboard | `contrib/dashboard/{history,events,audit}.py`, `contrib/dashboard/logs/storage.py` |
| Web | `contrib/dashboard/admin/middleware/*`, stacking in `admin/core.py`, sign-in in `admin/backends.py` |
| Remote | `contrib/dashboard/remote.py`: client, control application, snapshots, RemoteTask |
| Pages, Edit | `contrib/dashboard/controllers/*`: filters, pagination, bulk actions, trigger parsing, timeline, limits, the editing form |

## Not modelled

* Rendering: Jinja templates, CSS/JS, rich/CLI table output; `cli/commands/*` beyond option handling and `update`; CLI application
  discovery (`cli/loader.py`, `cli/bootstrap_loader.py`); `conf/*` settings loading; `logs/handler.py` (attachment of the logging handler).
* Real threads, the asyncio loop's internals, sockets, signals. Concurrency is modelled where properties depend on it (executors,
  locks, workers, run_task against a pass, history status) as interleavings of atomic steps.
* Python's float rounding (timestamps as sort keys are exact integers; exact below 2^33 s, monotone above), `OverflowError` of
  datetimes outside years 1..9999 except in the cron search, recursion and memory limits.
* Pickle, JSON text, AES-CCM, Redis, SQL, MongoDB, the filesystem, flock, ASGI servers and Lilya routing: specified by the laws below.

## Assumptions about libraries (hypotheses or model structure, all visible in the statements)

* Zones (`Lawful`): offsets less than a day, PEP 495 fold semantics; `Fixed` = constant offset; `Calm`/`Steady` = no change of the clocks in the period concerned.
* AEAD: decryption inverts encryption and fails under another key. Pickle/JSON: loading inverts dumping.
* One command of Redis (MULTI/EXEC), SQL or MongoDB and one filesystem call are atomic; `flock` locks belong to open file descriptions.
* `str.lower`, `str.strip`, `int`, `\d` on Unicode text are parameters with stated laws (`Str.Lawful`, digit tables).
* Triggers in scheduler theorems are arbitrary functions (they may draw jitter or raise); specific triggers are plugged in afterwards.


## Properties: plan and outcome

For each property: how it is modelled and proved, the status in MANIFEST.json, the theorems, and what is missing.

### C01 In-memory store behaves as a map keyed by task id

*Plan.* MemoryStore list+index+binary search modelled function by function; refinement to an abstract map by induction over the operation list.

*Outcome: proved.* refinement by induction over histories; float timestamps modelled as integer microseconds

Theorems: `Asyncz.Memory.C01_memory_is_a_map`, `Asyncz.Memory.C01_memory_ids_unique`, `Asyncz.Memory.C01_memory_live_mutation`

### C02 In-memory store returns exactly the due tasks, earliest first

*Plan.* same model; `get_due_tasks` characterised by membership + ordering in terms of the abstract map.

*Outcome: proved.* 

Theorems: `Asyncz.Memory.C02_memory_due`, `Asyncz.Memory.C02_memory_due_live_mutation`

### C03 In-memory store reports the earliest wake-up and lists paused tasks last

*Plan.* same model; minimum / paused-last as corollaries of the sortedness invariant.

*Outcome: proved.* 

Theorems: `Asyncz.Memory.C03_memory_next_run_time`, `Asyncz.Memory.C03_memory_listing_order`

### C04 Store error contract: failing calls change nothing

*Plan.* same store models; error branch exactly characterised per step, state unchanged.

*Outcome: proved.* file store: for histories of accepted ids and serialisable tasks; a serialisation failure is not a store error and does change the file store, see C06

Theorems: `Asyncz.Memory.C04_memory_errors`, `Asyncz.Persist.File.C04_file_errors`, `Asyncz.Persist.Redis.C04_redis_errors`, `Asyncz.Persist.Rows.C04_rows_errors`

### C05 File store behaves as the same map as the in-memory store

*Plan.* FileStore over an abstract filesystem (file name -> bytes state); refinement to the abstract map for crash-free histories.

*Outcome: proved.* ties by st_ctime not modelled; pickle/AES codec abstract with a round-trip assumption

Theorems: `Asyncz.Persist.File.C05_file_refines_map`

### C06 File store updates are all-or-nothing

*Plan.* FileStore calls as sequences of atomic filesystem steps; crash = any prefix. Expected false of the code (truncate-before-write): witness + partial theorem.

*Outcome: partial.* the property is false of the code: truncate-before-serialise loses the task, a failed add blocks the id (witness theorems); the _partial theorems say what survives

Theorems: `Asyncz.Persist.File.C06_file_update_crash_partial`, `Asyncz.Persist.File.C06_file_add_crash_partial`, `Asyncz.Persist.File.C06_update_can_lose_task`, `Asyncz.Persist.File.C06_failed_add_blocks_id`, `Asyncz.Persist.File.C06_failed_update_loses_task`

### C07 Redis store refines the same map and due semantics

*Plan.* RedisStore over an abstract Redis (hash + sorted set, MULTI/EXEC atomic). Expected false for pre-epoch run times: witness + partial.

*Outcome: partial.* false for run times before 1970: ZRANGEBYSCORE starts at 0 (witness theorem)

Theorems: `Asyncz.Persist.Redis.C07_redis_refines_map`, `Asyncz.Persist.Redis.C07_redis_due_partial`, `Asyncz.Persist.Redis.C07_pre_epoch_never_due`

### C08 SQL and MongoDB stores refine the same map and due semantics

*Plan.* SQLAlchemyStore / MongoDBStore over abstract tables; refinement.

*Outcome: partial.* full refinement for exact run-time columns (MongoDB, SQLite); a BIGINT column that rounds breaks exact due-ness (witness)

Theorems: `Asyncz.Persist.Rows.C08_sql_refines_map`, `Asyncz.Persist.Rows.C08_mongo_refines_map`, `Asyncz.Persist.Rows.C08_sql_rounded_due_partial`, `Asyncz.Persist.Rows.C08_rounding_counterexample`

### C09 File store ids cannot escape the store directory

*Plan.* check_task_id as a function on character lists; path confinement and injectivity.

*Outcome: proved.* symlinks and OS-specific reserved names not modelled

Theorems: `Asyncz.Persist.File.C09_check_task_id_exact`, `Asyncz.Persist.File.C09_confined`, `Asyncz.Persist.File.C09_injective`, `Asyncz.Persist.File.C09_rejected_touches_nothing`

### C10 Encrypted store payloads round-trip and reject foreign keys

*Plan.* AES-CCM as an abstract AEAD (assumption recorded: decrypt inverts encrypt, rejects foreign keys); nonce prefix split/join proved.

*Outcome: proved.* AES-CCM is an assumption (structure AEAD); proved part is the nonce framing

Theorems: `Asyncz.Crypto.C10_roundtrip`, `Asyncz.Crypto.C10_foreign_key`, `Asyncz.Crypto.C10_clear`

### C11 Interval trigger fires on the grid start + k*interval, at the first point not before now

*Plan.* IntervalTrigger over integer microseconds; least grid point by omega/ediv lemmas.

*Outcome: partial.* Proved for all fixed-offset zones (by instant) and for every lawful zone by wall clock. Zones whose offset changes violate the property; the witness theorem shows it. Also for every zone, in a period without a change of the clocks (Props/Steady.lean). C11_zones and C11_given_times: the zone in which start and end are read, and times that the clocks skip.

Theorems: `Asyncz.Interval.C11_interval_first_run_partial`, `Asyncz.Interval.C11_interval_wall_clock`, `Asyncz.Interval.C11_dst_witness`, `Asyncz.Interval.C11_interval_first_run_calm_partial`, `Asyncz.Interval.C11_zones`, `Asyncz.Interval.C11_given_times`

### C12 Consecutive interval runs are exactly one interval apart

*Plan.* zone model (offset function); exact spacing for fixed-offset zones, DST witness.

*Outcome: partial.* Proved for all fixed-offset zones. Zones whose offset changes violate the property; the witness theorem shows it. Also for every zone, in a period without a change of the clocks (Props/Steady.lean). In every lawful zone the step is exact on the wall clock.

Theorems: `Asyncz.Interval.C12_interval_spacing_partial`, `Asyncz.Interval.C12_interval_step_partial`, `Asyncz.Interval.C12_dst_witness`, `Asyncz.Interval.C12_interval_step_calm_partial`, `Asyncz.Interval.C12_interval_spacing_calm_partial`, `Asyncz.Interval.C12_interval_step_wall`

### C13 No trigger fires after its end date

*Plan.* both trigger models, jitter draw is a universally quantified input.

*Outcome: partial.* Interval part proved for fixed-offset zones (None-stays only without jitter); counterexamples with DST and with jitter. Cron: not after end in the comparison the code makes (all zones) and as instants (fixed-offset zones). Also for every zone, in a period without a change of the clocks (Props/Steady.lean).

Theorems: `Asyncz.Interval.C13_interval_not_after_end_partial`, `Asyncz.Interval.C13_interval_none_stays_partial`, `Asyncz.Interval.C13_dst_witness`, `Asyncz.Interval.C13_jitter_witness`, `Asyncz.Cron.C13_cron_not_after_end`, `Asyncz.Cron.C13_cron_within_end_partial`, `Asyncz.Cron.C13_cron_none_stays_partial`, `Asyncz.Interval.C13_interval_not_after_end_calm_partial`, `Asyncz.Cron.C13_cron_within_end_calm_partial`

### C14 Date trigger fires exactly once

*Plan.* DateTrigger + scheduler pass.

*Outcome: proved.* Trigger and scheduler side.

Theorems: `Asyncz.C14_date_trigger`, `Asyncz.Sched.C14_runs_at_most_once`

### C15 OrTrigger is the earliest of its members

*Plan.* fold over members, any length.

*Outcome: partial.* Proved whenever Python orders the returned times as instants (all fixed-offset zones); counterexample in the repeated DST hour. Also for every zone, in a period without a change of the clocks (Props/Steady.lean). Nested unions of the built-in triggers, of any depth, answer as one OrTrigger of all their leaves.

Theorems: `Asyncz.C15_or_trigger_partial`, `Asyncz.C15_or_total`, `Asyncz.C15_dst_witness`, `Asyncz.C15_or_trigger_calm_partial`, `Asyncz.Sched.C15_nested_partial`

### C16 AndTrigger returns only times on which every member agrees, and always answers

*Plan.* fuelled loop; soundness for every fuel; divergence witness for every fuel; partial.

*Outcome: partial.* Soundness for all inputs in fixed-offset zones; termination whenever members follow schedules (holds before the first run); after the first run the loop hangs (proved for every number of rounds). The hang after the first run is proved for all built-in members whose next times differ. Nested triggers have at most one answer, whatever bound on the rounds is used to state it, and hang if a member hangs (Props/TrigRounds.lean).

Theorems: `Asyncz.C16_and_sound_partial`, `Asyncz.C16_and_none`, `Asyncz.C16_and_none_of`, `Asyncz.C16_and_finds_common_partial`, `Asyncz.C16_and_ends_partial`, `Asyncz.Interval.follows`, `Asyncz.C16_and_hangs_witness`, `Asyncz.C16_and_empty`, `Asyncz.Sched.C16_and_after_run_witness`, `Asyncz.Sched.C16_nested_answer`, `Asyncz.Sched.C16_nested_hang`, `Asyncz.Sched.C16_nested_hang_first`

### C17 Cron trigger only fires at matching times

*Plan.* full CronTrigger search on a proleptic Gregorian calendar; soundness at loop exit.

*Outcome: partial.* Every zone: the wall-clock value reached by the search matches every field. Fixed-offset zones: the returned instant fires. Missing: in a daylight-saving gap the code returns a time whose wall clock does not exist (witness). Also for every zone, in a period without a change of the clocks (Props/Steady.lean). C17_zones: the zone in which start and end dates are read.

Theorems: `Asyncz.Cron.C17_C18_cron_wall_clock_partial`, `Asyncz.Cron.C17_C18_cron_first_match_partial`, `Asyncz.Cron.C17_gap_witness`, `Asyncz.Cron.C17_C18_cron_first_match_calm_partial`, `Asyncz.Cron.C17_zones`

### C18 Cron trigger never skips a matching time

*Plan.* loop invariant: no matching instant in [start,current).

*Outcome: partial.* First match proved for every zone in wall-clock terms and for fixed-offset zones in instants; in a daylight-saving overlap the code skips the second occurrence (witness). Also for every zone, in a period without a change of the clocks (Props/Steady.lean).

Theorems: `Asyncz.Cron.C17_C18_cron_wall_clock_partial`, `Asyncz.Cron.C17_C18_cron_first_match_partial`, `Asyncz.Cron.C18_cron_finds_partial`, `Asyncz.Cron.C18_overlap_witness`, `Asyncz.Cron.C17_C18_cron_first_match_calm_partial`, `Asyncz.Cron.C18_cron_finds_calm_partial`

### C19 Cron trigger makes progress and terminates

*Plan.* termination measure on the calendar; progress.

*Outcome: partial.* Termination proved in full. Progress needs a clock that does not go back (witness shows failure otherwise), fixed-offset zones. Also for every zone, in a period without a change of the clocks (Props/Steady.lean).

Theorems: `Asyncz.Cron.C19_cron_terminates`, `Asyncz.Cron.C19_cron_progress_partial`, `Asyncz.Cron.C19_clock_back_witness`, `Asyncz.Cron.C19_end_of_calendar_witness`, `Asyncz.Cron.C19_cron_progress_calm_partial`

### C20 Cron field expressions select the documented values

*Plan.* each expression's get_next_value against an independent set-of-values spec.

*Outcome: proved.* 

Theorems: `Asyncz.Cron.C20_expression_values`, `Asyncz.Cron.C20_field_values`, `Asyncz.Cron.C20_numeric_texts`

### C21 Cron expressions round-trip through their text

*Plan.* printer/parser on characters, round trip.

*Outcome: partial.* Round trip fails for ranges ending in 0 (witness) and trailing text is accepted (witness); proved otherwise.

Theorems: `Asyncz.Cron.C21_accepted_in_range`, `Asyncz.Cron.C21_roundtrip_partial`, `Asyncz.Cron.C21_zero_range_witness`, `Asyncz.Cron.C21_trailing_text_witness`

### C22 Jitter stays within its bound

*Plan.* draw quantified.

*Outcome: partial.* Per-call bound proved in fixed-offset zones; the delays accumulate over runs (witness). Cron trigger: fixed-offset zones. Also for every zone, in a period without a change of the clocks (Props/Steady.lean).

Theorems: `Asyncz.Interval.C22_interval_jitter_partial`, `Asyncz.C22_or_jitter_partial`, `Asyncz.Interval.C22_interval_jitter_accumulates_witness`, `Asyncz.Cron.C22_cron_jitter_partial`, `Asyncz.Interval.C22_interval_jitter_calm_partial`, `Asyncz.C22_or_jitter_calm_partial`, `Asyncz.Cron.C22_cron_jitter_calm_partial`

### C23 A restored trigger has the same schedule

*Plan.* get/setstate as functions; behaviour equality; interval witness.

*Outcome: partial.* Interval triggers lose interval_size: first-run queries after restore raise AttributeError (proved for every such trigger). Combinations of any depth: restored ones answer as before except for the first call if an interval trigger is in them.

Theorems: `Asyncz.Interval.C23_interval_restore_partial`, `Asyncz.Interval.C23_interval_restore_witness`, `Asyncz.C23_date_restore`, `Asyncz.Cron.C23_cron_restore`, `Asyncz.Sched.C23_tree_restore_partial`, `Asyncz.Sched.C23_tree_restore_witness`

### C24 A task's due run times are exactly its schedule up to now

*Plan.* get_run_times as a fuelled loop over an abstract trigger; exactness by induction.

*Outcome: partial.* Proved for every trigger that goes forward (termination, order, uniqueness), and concretely for interval and cron triggers in fixed-offset zones; the DST counterexample shows why "in order" fails in general. Also for every zone, in a period without a change of the clocks (Props/Steady.lean).

Theorems: `Asyncz.Sched.C24_due_run_times_partial`, `Asyncz.Sched.C24_nothing_early`, `Asyncz.Sched.C24_interval_run_times_partial`, `Asyncz.Sched.C24_cron_run_times_partial`, `Asyncz.Sched.C24_dst_witness`, `Asyncz.Sched.C24_interval_run_times_calm_partial`

### C25 Task updates are validated and all-or-nothing

*Plan.* update_task as validation + commit.

*Outcome: proved.* For every task, fn, scheduler and keyword arguments: accepted exactly when Accepts holds, then changes exactly what Effect says; otherwise raises and leaves every attribute alone. Objects are known by identity; truthiness of callables is assumed; iterables are not consumed by the checks (check_callable_args only takes len).

Theorems: `Asyncz.TaskObj.C25_update_task`, `Asyncz.TaskObj.C25_rejects`

### C26 A persisted task is restored with the same meaning

*Plan.* getstate/setstate.

*Outcome: partial.* Round trip proved for every serialisable task whose reference leads back to its function. Missing: obj_to_ref does not check that; witness: an inherited class method is restored bound to the base class.

Theorems: `Asyncz.TaskObj.C26_round_trip_partial`, `Asyncz.TaskObj.C26_again_partial`, `Asyncz.TaskObj.C26_saveable_iff`, `Asyncz.TaskObj.C26_classmethod_witness`

### C27 At most max_instances concurrent runs of a task

*Plan.* executor transition system with arbitrary interleavings.

*Outcome: partial.* Interleaving model of the reads/writes of scheduler.instances under per-executor reentrant locks. Proved when each task id always goes to one executor that does not submit from inside do_send_task; both excluded cases are real and shown by witnesses (two executors: check-then-act race; DebugExecutor: nested run not counted).

Theorems: `Asyncz.Exec.C27_max_instances_partial`, `Asyncz.Exec.C27_submission_partial`, `Asyncz.Exec.C27_refused_partial`, `Asyncz.Exec.C27_two_executors_witness`, `Asyncz.Exec.C27_nested_witness`, `Asyncz.Exec.sendTask_is_send`

### C28 The running-instance count neither leaks nor goes negative

*Plan.* same transition system, ghost multiset of live runs.

*Outcome: partial.* Count is exact whenever no call for the task is in progress, hence 0 and resubmittable when all runs have ended. Excluded: futures cancelled in a pool (callback raises, count leaks: witness), and the dict entry may stay as 0 (witness).

Theorems: `Asyncz.Exec.C28_count_exact_partial`, `Asyncz.Exec.C28_no_leak_partial`, `Asyncz.Exec.C28_cancelled_blocks`, `Asyncz.Exec.C28_entry_witness`, `Asyncz.Exec.C28_cancelled_witness`, `Asyncz.Sched.C28_scheduler_count`, `Asyncz.Sched.C28_scheduler_not_refused`

### C29 Every scheduled run time produces exactly one outcome event

*Plan.* run_task as a fold over run times with oracle clock and function.

*Outcome: partial.* Full statement for functions that return or raise Exceptions; a BaseException loses the events of the whole call (witness).

Theorems: `Asyncz.Exec.C29_one_event_each_partial`, `Asyncz.Exec.C29_escape_witness`

### C30 Nested start/shutdown is reference counted

*Plan.* ref counter state machine; history induction.

*Outcome: partial.* Proved for every history in which start does not raise and every shutdown matches a start, for the base scheduler and for AsyncIOScheduler. The last clause (an unbalanced shutdown leaves later calls alone) is false of the code: witnesses.

Theorems: `Asyncz.Sched.C30_nested_partial`, `Asyncz.Sched.C30_unmatched_witness`, `Asyncz.Sched.C30_failed_start_witness`, `Asyncz.Sched.C30_async_nested_partial`, `Asyncz.Sched.C30_async_return_witness`

### C31 Each processing pass submits every due task once with its due run times

*Plan.* _process_tasks_of_store over the MemoryStore model with abstract triggers/executors.

*Outcome: partial.* Every store, trigger and clock; the two counterexamples (jitter, raising trigger) are the missing cases.

Theorems: `Asyncz.Sched.C31_pass_partial`, `Asyncz.Sched.C31_pass_completes`, `Asyncz.Sched.C31_jitter_witness`, `Asyncz.Sched.C31_raise_witness`

### C32 No task runs early, and no scheduled time is run twice

*Plan.* history of passes.

*Outcome: partial.* Every history of completed passes with arbitrary other calls in between, jitter allowed, clock need not be monotone; abandoned passes are the missing case (counterexample).

Theorems: `Asyncz.Sched.C32_no_early_no_twice_partial`, `Asyncz.Sched.C32_raise_witness`

### C33 The scheduler is always woken in time for the earliest task

*Plan.* timer + pending wakeup state machine over all API calls; run_task is the exception.

*Outcome: partial.* Whenever a running scheduler is idle its timer is armed no later than (and, right after a pass, exactly at) the earliest stored next run time, for every history without forced runs / raising passes; the two witnesses show the code loses the wake-up after run_task(force_run) and after a pass that raises.

Theorems: `Asyncz.Sched.C33_timely_partial`, `Asyncz.Sched.C33_exact_partial`, `Asyncz.Sched.C33_forced_run_witness`, `Asyncz.Sched.C33_raise_witness`

### C34 Tasks added before start are all scheduled at start

*Plan.* pending list.

*Outcome: partial.* start() moves every waiting task into its store with its first run time when names are distinct; name clashes are dropped silently (witness), a pending pause is lost (C36_pending_witness).

Theorems: `Asyncz.Sched.C34_start_partial`, `Asyncz.Sched.C34_distinct`, `Asyncz.Sched.C34_conflict_witness`, `Asyncz.Sched.C36_pending_witness`, `Asyncz.Sched.C30_failed_start_witness`

### C35 Event listeners see exactly the events they subscribed to, in order

*Plan.* listener list.

*Outcome: proved.* For every list of listeners, every mask, every behaviour of the callbacks (raising, changing the registrations, dispatching) and every history. Masks are non-negative integers; str masks, which the annotation allows, would raise TypeError in dispatch_event and are outside the model.

Theorems: `Asyncz.Listen.C35_mask`, `Asyncz.Listen.C35_dispatch`, `Asyncz.Listen.C35_registration`, `Asyncz.Listen.C35_history`

### C36 Pausing stops and resuming restarts a task

*Plan.* scheduler model.

*Outcome: partial.* Pausing a task that is still pending (scheduler not started) is lost at start: witness. Even a pass that raises submits only tasks that were stored and due.

Theorems: `Asyncz.Sched.C36_pause_partial`, `Asyncz.Sched.C36_resume`, `Asyncz.Sched.C36_paused_not_submitted`, `Asyncz.Sched.C36_pending_witness`, `Asyncz.Sched.C36_only_due_submitted`

### C37 Store and executor aliases are unique and stable

*Plan.* alias dicts.

*Outcome: proved.* 

Theorems: `Asyncz.Sched.C37_executor_aliases`, `Asyncz.Sched.C37_store_aliases`

### C38 Operations reach a task wherever it is

*Plan.* scheduler model, lookup.

*Outcome: partial.* All calls; resume_task on a stopped scheduler can act on another pending task: witness. remove_all_tasks removes exactly the tasks of the named store or of all (of a stopped scheduler: the waiting ones only).

Theorems: `Asyncz.Sched.C38_lookup`, `Asyncz.Sched.C38_delete`, `Asyncz.Sched.C38_update`, `Asyncz.Sched.C38_reschedule`, `Asyncz.Sched.C36_pause_partial`, `Asyncz.Sched.C36_resume`, `Asyncz.Sched.C38_resume_pending_witness`, `Asyncz.Sched.C38_remove_all`

### C39 Explicit run_task submits once and reschedules correctly

*Plan.* run_task.

*Outcome: partial.* run_task as one atomic step; the code does not hold the store lock, so a concurrent pass can submit the same run time: witness.

Theorems: `Asyncz.Sched.C39_run_task_partial`, `Asyncz.Sched.C39_not_found`, `Asyncz.Sched.C39_race_witness`

### C40 Shutdown tasks run exactly once, at shutdown

*Plan.* shutdown.

*Outcome: partial.* shutdown runs every shutdown task exactly once and nothing else, removes them, and persistent stores keep the rest; passes (even raising ones) never submit them unless somebody gives them a run time. MemoryStore.shutdown drops the rest (witness).

Theorems: `Asyncz.Sched.C40_shutdown_partial`, `Asyncz.Sched.C40_never_submitted_partial`, `Asyncz.Sched.C40_memory_witness`, `Asyncz.Sched.C40_explicit_time_witness`

### C41 A preview shows the runs that will happen

*Plan.* preview loop.

*Outcome: partial.* The preview theorem is for all triggers; that the passes then run the previewed times is proved for triggers without jitter whose next time does not depend on now. With jitter the property is false (C41_jitter_witness).

Theorems: `Asyncz.Sched.C41_preview`, `Asyncz.Sched.C41_runs_are_previewed_partial`, `Asyncz.Sched.C41_jitter_witness`

### C42 Task listing filters and sorts correctly

*Plan.* filter + sort.

*Outcome: proved.* str.lower and str.strip are arbitrary functions; the texts of snapshot() are arbitrary fields.

Theorems: `Asyncz.Listing.C42_rejects`, `Asyncz.Listing.C42_listing`, `Asyncz.Listing.C42_next_run_time`, `Asyncz.Listing.C42_state`, `Asyncz.Sched.C42_get_tasks`, `Asyncz.Sched.C42_scheduler`

### C43 Configuration keys are parsed without loss or interference

*Plan.* config flatten on key paths.

*Outcome: partial.* Read-back proved for key sets in which no key continues another after a dot; witness: with such keys a value is lost silently or setup raises. Scalar options (timezone, shape, logger) and plugin loading are not modelled. An alias that is taken is refused.

Theorems: `Asyncz.Config.C43_running`, `Asyncz.Config.C43_setup_partial`, `Asyncz.Config.C43_conflict_witness`, `Asyncz.Config.C43_entries`, `Asyncz.Config.C43_alias`

### C44 Scheduler locks give mutual exclusion and are released

*Plan.* lock transition systems; partial (OS flock semantics assumed).

*Outcome: partial.* Mutual exclusion of thread locks in full. Release: only if the body does not raise (LockProtected/RLockProtected have no try/finally; witness). File locks: exclusive as long as no holder-side shutdown removes the lock file (witness), released in every case. POSIX flock semantics are modelled, Windows is not.

Theorems: `Asyncz.Locks.C44_threads_exclusive`, `Asyncz.Locks.C44_threads_released_partial`, `Asyncz.Locks.C44_threads_raise_witness`, `Asyncz.Locks.File.C44_files_exclusive_partial`, `Asyncz.Locks.File.C44_files_released`, `Asyncz.Locks.File.C44_shutdown_witness`

### C45 Callable/argument validation predicts whether the call binds

*Plan.* signature model and independent binding spec.

*Outcome: partial.* Acceptance implies binding in full, for every signature, number of arguments and keyword set, against a declarative specification of Python calls. The converse except for a keyword that has the name of an unreached positional-only parameter of a callable with **kwargs (witness). inspect.signature is taken as given.

Theorems: `Asyncz.Call.C45_accepted`, `Asyncz.Call.C45_rejected_partial`, `Asyncz.Call.C45_witness`

### C46 Dashboard pages are unreachable without authentication

*Plan.* middleware as function of scope and backend answer.

*Outcome: partial.* HTTP requests whose path lies below the mount point. Witnesses: a path that merely begins with the mount point is matched against the allow-list from its middle, websocket connections are not gated, and a URL prefix below an allow-listed one leaves the dashboard public. The allow-list is exactly the one given plus /static and /assets below a non-trivial prefix.

Theorems: `Asyncz.Web.gate_partial`, `Asyncz.Web.admin_pages_gated`, `Asyncz.Web.gate_boundary_witness`, `Asyncz.Web.gate_websocket_witness`, `Asyncz.Web.admin_prefix_witness`, `Asyncz.Web.adminAllowlist_iff`

### C47 Security headers are always present and never overwrite the app's own

*Plan.* header list function.

*Outcome: proved.* For configured headers with distinct lower-case names, as the default ones are (defaultHeaders_ok); addHeaders_capital_witness shows the need for lower case.

Theorems: `Asyncz.Web.addHeaders_spec`, `Asyncz.Web.defaultHeaders_ok`, `Asyncz.Web.admin_headers`, `Asyncz.Web.addHeaders_capital_witness`

### C48 Forwarded root path is honoured only from trusted sources

*Plan.* header/scope function.

*Outcome: partial.* The prefix starts with a slash and does not end in one, but several leading slashes are kept (witness).

Theorems: `Asyncz.Web.forwarded_partial`, `Asyncz.Web.combined_normal`, `Asyncz.Web.forwarded_double_slash_witness`

### C49 Run history is bounded, keyed by run and never regresses

*Plan.* upsert/trim machine.

*Outcome: partial.* Every sequence of calls whose runs have distinct identifiers (runId_clean gives a sufficient condition), one call at a time; witnesses for colliding identifiers and for the unlocked read-test-write of the status. What a record tells of its task (name, callable, executor, scheduler) is learnt from the first report that has it and kept; the result fields are those of the execution report. C49_latest: the newest record of a task, if any, is what the latest query returns. C49_result_origin: a listed result is that of a report about this very run. history_key and history_same_run say what the key of a run is: task, store and instant, however the time is written. history_lines: level and number of the lines logged.

Theorems: `Asyncz.Hist.history_partial`, `Asyncz.Hist.history_dated`, `Asyncz.Hist.history_terminal_stays`, `Asyncz.Hist.history_execution`, `Asyncz.Hist.history_frame`, `Asyncz.Hist.history_frame_submission`, `Asyncz.Hist.history_query`, `Asyncz.Hist.history_summary`, `Asyncz.Hist.runId_clean`, `Asyncz.Hist.status_serial`, `Asyncz.Hist.runId_collision_witness`, `Asyncz.Hist.status_race_witness`, `Asyncz.Hist.history_clip`, `Asyncz.Hist.history_result`, `Asyncz.Hist.history_submitted`, `Asyncz.Hist.C49_latest`, `Asyncz.Hist.C49_result_origin`, `Asyncz.Hist.history_key`, `Asyncz.Hist.history_same_run`, `Asyncz.Hist.history_lines`

### C50 Event, audit and log buffers keep the newest entries in order

*Plan.* ring buffers.

*Outcome: partial.* For limits of at least 1 and distinct audit ids; limit=0 returns one entry (witness).

Theorems: `Asyncz.Dash.events_partial`, `Asyncz.Dash.logs_partial`, `Asyncz.Dash.audit_partial`, `Asyncz.Dash.log_coerce`, `Asyncz.Dash.logQuery_limit_zero_witness`, `Asyncz.Dash.auditQuery_capital_witness`, `Asyncz.Dash.audit_same_id_witness`

### C51 Date strings are parsed to the instant they denote

*Plan.* regex groups as a parser on characters.

*Outcome: partial.* Strings of the documented format denote the written date, time and offset, everything else is rejected, for every digit table; proved for fractions of exactly six digits or none. Missing: shorter fractions are read as a count of microseconds (fraction_witness) and a trailing newline is accepted (newline_witness).

Theorems: `Asyncz.DateString.zone_partial`, `Asyncz.DateString.local_partial`, `Asyncz.DateString.naive_partial`, `Asyncz.DateString.reject`, `Asyncz.DateString.fraction_witness`, `Asyncz.DateString.newline_witness`

### C52 CLI store options parse to the alias and settings given

*Plan.* string split model.

*Outcome: partial.* Each store option is parsed exactly and the resulting map is the last option per alias. Missing: two stores of one kind collapse into one (stores_lost_witness) and free aliases are refused (alias_witness). stores_default: with no store options there is exactly the in-memory default store.

Theorems: `Asyncz.Cli.store_option`, `Asyncz.Cli.stores_map`, `Asyncz.Cli.stores_map_partial`, `Asyncz.Cli.stores_lost_witness`, `Asyncz.Cli.alias_witness`, `Asyncz.Cli.stores_default`

### C53 Shape registry never silently replaces a shape

*Plan.* registry dict.

*Outcome: proved.* For every history of registry calls: exact conditions, results and effects of register, unregister, get, available and resolve.

Theorems: `Asyncz.Shapes.register_iff`, `Asyncz.Shapes.lookup_iff`, `Asyncz.Shapes.bound_unique`

### C54 Durations and rounding helpers are exact

*Plan.* integer arithmetic + zone laws.

*Outcome: partial.* Exact by wall clock in every zone; as instants for constant offsets, since in the repeated hour of a daylight-saving change the rounded time can be an hour before the argument (witness). Binary floating point is not modelled.

Theorems: `Asyncz.C54_ceil`, `Asyncz.C54_ceil_instant_partial`, `Asyncz.C54_fold_witness`, `Asyncz.C54_seconds`, `Asyncz.C54_normalize`

### C55 An interval trigger without start date first fires one interval after it is created

*Plan.* Creation of the trigger (default start date in the system zone, conversion to the trigger's and scheduler's zone) as functions on zones; first query.

*Outcome: partial.* Holds when a timezone is given or the system and scheduler offsets agree; otherwise false (witness). Also for every zone, in a period without a change of the clocks (Props/Steady.lean).

Theorems: `Asyncz.Interval.C55_default_start_with_timezone_partial`, `Asyncz.Interval.C55_default_start_same_zone_partial`, `Asyncz.Interval.C55_default_start_witness`, `Asyncz.Interval.C55_default_start_calm_partial`

### C57 A stopped scheduler submits nothing

*Plan.* AsyncIOScheduler with its queue of posted calls and its timer handle; invariant over every history of calls and loop turns.

*Outcome: partial.* Holds from every stopped state without queued wake-up; false when add_task is called between AsyncIOScheduler.shutdown() and the loop running it (witness).

Theorems: `Asyncz.Sched.C57_stopped_partial`, `Asyncz.Sched.C57_queued_wakeup_witness`

### C56 from_crontab schedules the five crontab fields

*Plan.* from_crontab as five expressions; the schedule against a specification of crontab fields in asyncz's numbering (0 = Monday).

*Outcome: proved.* All strings (ASCII blanks) and all choices of given fields. C56_weekday_numbers records that weekday 0 is Monday and 7 is rejected, unlike in crontab files.

Theorems: `Asyncz.Cron.C56_defaults`, `Asyncz.Cron.C56_crontab`, `Asyncz.Cron.C56_meaning`, `Asyncz.Cron.C56_weekday_numbers`

### C58 Task defaults apply exactly where an argument is omitted

*Plan.* add_task's assembly of options from arguments, defaults and trigger; option by option.

*Outcome: partial.* Fails for a configured mistrigger_grace_time of None: the dump drops it and the task gets the class default of 1 second (witness).

Theorems: `Asyncz.Config.C58_defaults_partial`, `Asyncz.Config.C58_none_witness`

### C59 Workers sharing a store submit each run time at most once

*Plan.* transition system of workers: lock, due tasks, hand-over, write-back, release; invariant over all interleavings.

*Outcome: partial.* For every interleaving of passes and API calls (add, update, pause, resume, reschedule, delete, replace) of any number of workers, with any triggers, without a store shutdown in between, without a death or exception between handing a task over and writing it back, and without an API call that sets a time not later than those handed over or writes back a next run time read before a hand-over; the witnesses show that each of these really causes a second submission. A pause through another worker can be undone by a pass under way (C59_lost_pause_witness). run_task is not part of this model (see C39).

Theorems: `Asyncz.Workers.C59_once_partial`, `Asyncz.Workers.C59_shutdown_witness`, `Asyncz.Workers.C59_crash_witness`, `Asyncz.Workers.C59_stale_update_witness`, `Asyncz.Workers.C59_lost_pause_witness`

### C60 The signed-in dashboard user is the one of the last successful login

*Plan.* login, form view and logout as transitions of the session; induction over histories.

*Outcome: partial.* For users whose extra data has no key named like a user field; otherwise the extra value replaces the field (witness). signIn_sessions: absent, empty and incomplete sessions.

Theorems: `Asyncz.Web.signIn_partial`, `Asyncz.Web.signIn_extra_witness`, `Asyncz.Web.signIn_sessions`

### C61 Command-line executors, intervals and triggers mean what is written

*Plan.* option parsers as functions on texts, exact characterisation.

*Outcome: partial.* Characterised exactly for every string. Missing: a unit that only matches case-insensitively through Unicode (long s) raises KeyError instead of being refused.

Theorems: `Asyncz.Cli.executor_option`, `Asyncz.Cli.executors_map`, `Asyncz.Cli.interval`, `Asyncz.Cli.trigger_option`, `Asyncz.Cli.interval_long_s_witness`, `Asyncz.Cli.executor_types`

### C62 asyncz update shows exactly what changes and changes nothing unless applied

*Plan.* asyncz update: mapping of options to changes and the difference shown.

*Outcome: proved.* Dry run leaves the task, applying changes exactly the requested attributes, the reported diff is exact. update_cmd_refused: which command lines the update command refuses, and that nothing is written then.

Theorems: `Asyncz.Cli.update_cmd`, `Asyncz.Cli.update_cmd_refused`

### C63 A stored task state is restored under the shape it was saved with

*Plan.* registry, envelopes and stores as functions; exact condition for a round trip.

*Outcome: partial.* Exact condition for a record to be accepted and for a round trip; built-in shapes always round-trip while their names are not replaced. Missing: a custom class whose name attribute differs from its registered name writes records nobody can restore (custom_witness).

Theorems: `Asyncz.Shapes.restore_iff`, `Asyncz.Shapes.round_trip_iff`, `Asyncz.Shapes.builtin_partial`, `Asyncz.Shapes.custom_witness`, `Asyncz.Shapes.storeShape_eq`

### C64 Dumping a value keeps its data and structure

*Plan.* dump_plain on a tree of Python values, by structural induction against an inductive specification.

*Outcome: proved.* Objects with their own model_dump method are left to their library.

Theorems: `Asyncz.Shapes.dump_exact`

### C65 A remote scheduler call does what the direct call does

*Plan.* client, URL quoting, router, query parsing, JSON encoding and control application as functions over any scheduler; commutation of the remote and the direct call.

*Outcome: partial.* Proved for every call whose id has no slash, whose optional texts are not empty, with no explicit None for a new task, no `now` for previews and no trigger arguments beside a trigger object; those cases are where the code violates the property (shown by the witness theorems): ids with a slash are unreachable, None is dropped, `now` is ignored. Errors: TaskLookupError, SchedulerNotRunningError, MaximumInstancesError and ValueError keep their type; others become RemoteSchedulerError; exceptions of info/instances/detail/preview are not reported as such. A result that cannot be written as JSON is reported as an error although the call took effect.

Theorems: `Asyncz.Remote.C65_remote_partial`, `Asyncz.Remote.C65_exact_partial`, `Asyncz.Remote.C65_none_dropped`, `Asyncz.Remote.C65_now_ignored`, `Asyncz.Remote.C65_trigger_args_dropped`, `Asyncz.Remote.C65_slash_unreachable`

### C66 The control application obeys only clients with its token

*Plan.* same model; independence of the answer from the scheduler.

*Outcome: proved.* Every request, endpoint or not; the answer is independent of the scheduler and its state is unchanged.

Theorems: `Asyncz.Remote.C66_token`, `Asyncz.Remote.C66_token_admits`, `Asyncz.Remote.C66_client`

### C67 A remote task proxy shows the task and its edits

*Plan.* RemoteTask as attribute map; acceptance condition and effect of an edit.

*Outcome: proved.* C67_edit is an equivalence with the separate specification Edited. C67_edit_not_atomic: a refused edit may leave earlier attributes of the proxy changed.

Theorems: `Asyncz.Remote.C67_snapshot`, `Asyncz.Remote.C67_edit`, `Asyncz.Remote.C67_edit_not_atomic`

### C68 Dashboard pagination shows every matching task exactly once

*Plan.* filters, pagination and links as functions; blocks of a list and round trip of the query text.

*Outcome: proved.* Rows, flags, numbers and links of every page; browsing with "next" shows the filtered list once and in order. Beyond 10 000 pages (outside the statement) C68_page_limit shows that "next" repeats the page. get_task_infos is a parameter (C61/C34), blank characters/lower/int are parameters with the laws of Spec.Pages.Str.Lawful (an ASCII instance is proved lawful).

Theorems: `Asyncz.Pages.C68_page`, `Asyncz.Pages.C68_partition`, `Asyncz.Pages.C68_links`, `Asyncz.Pages.C68_browse`, `Asyncz.Pages.C68_page_limit`

### C69 A bulk selection is understood in each of its forms

*Plan.* the three payload forms as functions; first appearances specified independently.

*Outcome: partial.* Proved for text, JSON and repeated fields without commas; missing: repeated fields whose text holds commas are split without removing blanks (C69_list_blank_witness).

Theorems: `Asyncz.Pages.C69_text`, `Asyncz.Pages.C69_json`, `Asyncz.Pages.C69_fields`, `Asyncz.Pages.C69_join`, `Asyncz.Pages.firstAppearances_unique`, `Asyncz.Pages.C69_list_blank_witness`

### C70 A bulk action reaches every selected task once and is audited

*Plan.* the bulk loop over any scheduler; induction over the selection.

*Outcome: partial.* Proved when each call succeeds, finds no task, or (run) meets its instance limit; any other exception aborts the rest without an audit entry: C70_stop describes it for every run, C70_abort_witness shows it.

Theorems: `Asyncz.Pages.C70_bulk_partial`, `Asyncz.Pages.C70_stop`, `Asyncz.Pages.C70_abort_witness`

### C71 The task editing form changes exactly what it announces

*Plan.* the form parser and the controller over the update_task model of C25; a specification of what a form asks for; composition with C25.

*Outcome: proved.* Texts are any with lawful strip/lower (Str.Lawful); json.loads and float are parameters; non-finite floats are left out; argument objects are compared by ==.

Theorems: `Asyncz.Edit.C71_invalid`, `Asyncz.Edit.C71_rejected`, `Asyncz.Edit.C71_accepted`, `Asyncz.Edit.C71_not_found`, `Asyncz.Edit.C71_unchanged`

### C72 The creation form makes the trigger that was typed

*Plan.* parsers of the creation form, composed with the models of C20, C51 and the interval trigger.

*Outcome: partial.* Missing: the last clause fails, negative intervals are accepted (C72_negative_accepted) and make get_run_times run without end (C72_negative_witness; with Python datetimes until OverflowError at year 1).

Theorems: `Asyncz.Pages.C72_interval`, `Asyncz.Pages.C72_interval_only`, `Asyncz.Pages.C72_cron`, `Asyncz.Pages.C72_date`, `Asyncz.Pages.C72_zero`, `Asyncz.Pages.C72_negative_accepted`, `Asyncz.Pages.C72_negative_witness`

### C73 The timeline shows the earliest upcoming runs

*Plan.* row construction, stable sort and limit.

*Outcome: proved.* Previews are parameters (preview_task_runs is C17/C29). C73_timeline_default: the numbers of the timeline page, with defaults and bounds.

Theorems: `Asyncz.Pages.C73_timeline`, `Asyncz.Pages.C73_rows`, `Asyncz.Pages.C73_next`, `Asyncz.Pages.C73_limits`, `Asyncz.Pages.C73_limit_default`, `Asyncz.Pages.C73_timeline_default`

### C74 A plugin alias makes an instance of the class it points to

*Plan.* registries as dictionaries with a cache of classes; invariant over every history relating the cache to what the aliases point to.

*Outcome: partial.* Every history. Missing: after a TypeError a second use of the alias returns an instance of the wrong kind, and a new target of a used alias is ignored (witnesses). Starting the part added to a running scheduler is not part of this model.

Theorems: `Asyncz.Plugins.C74_create_partial`, `Asyncz.Plugins.C74_independent`, `Asyncz.Plugins.C74_trigger`, `Asyncz.Plugins.C74_add`, `Asyncz.Plugins.C74_defaults`, `Asyncz.Plugins.C74_kind_witness`, `Asyncz.Plugins.C74_stale_witness`, `Asyncz.Plugins.C74_builtin`

### C75 Decorating a function is the same as adding it

*Plan.* construction of tasks from options (over the update_task model of C25), template and copy; both paths are shown to give the task of one specification.

*Outcome: partial.* All options. Missing: next_run_time=None does not pause a decorated task, replace_existing is ignored, a callable without attributes raises after the task was added (witnesses). Pydantic type checks of Task.__init__ are not modelled (update_task repeats them).

Theorems: `Asyncz.Decor.C75_add`, `Asyncz.Decor.C75_decorate`, `Asyncz.Decor.C75_same_partial`, `Asyncz.Decor.C75_several`, `Asyncz.Decor.C75_no_scheduler`, `Asyncz.Decor.C75_paused_witness`, `Asyncz.Decor.C75_replace_witness`, `Asyncz.Decor.C75_method_witness`

### C76 A scheduler has at most one event loop thread, and none when it is stopped

*Plan.* start, posted shutdown and reference count as a transition system; invariant over every history.

*Outcome: partial.* At most one thread in every history of an AsyncIOScheduler; none when stopped unless a start failed (witness: the thread is left). NativeAsyncIOScheduler: for starts that are not nested (witness of the leak, and of the join that never returns).

Theorems: `Asyncz.Loops.C76_one_loop`, `Asyncz.Loops.C76_stopped_partial`, `Asyncz.Loops.C76_running`, `Asyncz.Loops.C76_app_loop`, `Asyncz.Loops.C76_failed_start_witness`, `Asyncz.Loops.C76_stale_loop_witness`, `Asyncz.Loops.C76_native_partial`, `Asyncz.Loops.C76_native_app`, `Asyncz.Loops.C76_native_nested_witness`, `Asyncz.Loops.C76_native_join_witness`, `Asyncz.Loops.C76_stop_then_post`

### C77 A coroutine with the shutdown trigger is run to its end

*Plan.* ready queue of a loop, turn by turn, and the closing of an isolated loop; the coroutines that end are computed for every queue.

*Outcome: partial.* Application loop: exact count in every turn. Isolated loop: exactly the coroutines that never suspend end; the code abandons the others (witness).

Theorems: `Asyncz.Loops.C77_own_loop`, `Asyncz.Loops.C77_app_loop`, `Asyncz.Loops.C77_app_loop_ends`, `Asyncz.Loops.C77_cut_witness`

### C78 An executor carries out each accepted run once

*Plan.* the runs of an executor as a transition system; invariant (each run at exactly one place) over every history.

*Outcome: partial.* Every history: exactly once, order, workers, waiting. The last clause and waiting of the AsyncIOExecutor are false of the code: C78_pool_dead and C78_loop_cut say so for every history. Functions of a default-executor thread that go on after their future was cancelled are not modelled.

Theorems: `Asyncz.Pool.C78_once`, `Asyncz.Pool.C78_not_cancelled`, `Asyncz.Pool.C78_waits`, `Asyncz.Pool.C78_wait`, `Asyncz.Pool.C78_accepts`, `Asyncz.Pool.C78_workers`, `Asyncz.Pool.C78_pool_dead`, `Asyncz.Pool.C78_loop_cut`, `Asyncz.Pool.C78_restart_witness`, `Asyncz.Pool.C78_broken_witness`, `Asyncz.Pool.C78_loop_wait_witness`, `Asyncz.Pool.C78_nobody_waits`

### C79 A message logged with a task's logger is stored under that task, and the log page of a run shows the run's messages

*Plan.* Model `Model/Logs.lean`: the adapter over a heap of dictionaries of extra data (`extra` aliasing), `_extract_task_id`, `emit` over the log storage of C63, the installation table with logger and handler levels, and `logs_for_run`. Attribution over whole histories by induction with the invariant that a dictionary carries the identifier of the one task that uses it; the page by the characterisation of the merge loop as 'first occurrences by key'.

*Outcome: partial.* Attribution over histories requires that each dictionary of extra data is used with one task's logger and names no task itself (C79_shared_witness shows the code is wrong otherwise); capture after reinstallation requires that no later level is below the first (C79_level_witness); the page shows entries up to equality of time, level, logger and message (C79_same_witness). Python's logging dispatch is modelled by the levels of logger and handler only. C79_owner: the task a record is attributed to. C79_buffer: what the handler keeps.

Theorems: `Asyncz.Logs.C79_attribution`, `Asyncz.Logs.C79_explicit`, `Asyncz.Logs.C79_history_partial`, `Asyncz.Logs.C79_shared_witness`, `Asyncz.Logs.C79_extra_none_witness`, `Asyncz.Logs.C79_stored`, `Asyncz.Logs.C79_install`, `Asyncz.Logs.C79_reinstall_partial`, `Asyncz.Logs.C79_level_witness`, `Asyncz.Logs.C79_run_logs`, `Asyncz.Logs.C79_same_witness`, `Asyncz.Logs.C79_stored_run`, `Asyncz.Logs.C79_owner`, `Asyncz.Logs.C79_buffer`

### C80 The dashboard records each event of each scheduler exactly once, in the storage last installed for it

*Plan.* Model `Model/Install.lean`: schedulers as objects with addresses and references, the two `_installed_listeners` tables and `_storage` globals, the installation over the listeners of C35, dispatch, and `_event_record`. Refinement: an invariant relates every reachable state to a machine without addresses, tables and closures (`Install.Spec`).

*Outcome: partial.* Recording exactly once and the isolation of user listeners are proved for all histories. A scheduler is released only if the dashboard was never installed for it (C80_kept_witness: otherwise the code keeps it for ever); the pages read the right storage only if all installations name the same one (C80_pages_witness). User callbacks that change registrations during dispatch are covered by C35 only. C80_execution: the fields of the record written for an execution. C80_names: the names of the kinds of events. C80_app: what creating the app subscribes.

Theorems: `Asyncz.Install.C80_recorded`, `Asyncz.Install.C80_one`, `Asyncz.Install.C80_released_partial`, `Asyncz.Install.C80_kept_witness`, `Asyncz.Install.C80_pages_partial`, `Asyncz.Install.C80_pages_witness`, `Asyncz.Install.C80_record`, `Asyncz.Install.C80_category_witness`, `Asyncz.Install.C80_text`, `Asyncz.Install.C80_execution`, `Asyncz.Install.C80_names`, `Asyncz.Install.C80_app`

### C81 Concurrent calls never deadlock when callbacks keep to themselves

*Plan.* Model/Deadlock.lean: structure of the `with` statements of every public method; trace semantics with exceptions; a thread system with reentrant locks and joins. Proof: a global lock order (executor_lock < store_lock < waiting for workers < executor locks < the rest) that every trace respects, compositionally; in a deadlocked set the place in the order would increase for ever.

*Outcome: proved.* All programs, schedules and exceptions. Data are abstracted to nondeterminism (an over-approximation). Waited workers only report runs (their functions do not call the scheduler): the hypothesis WorkersReport. Locks of logging, queues, databases and the dashboard storages are not modelled.

Theorems: `Asyncz.Deadlock.C81_no_deadlock`, `Asyncz.Deadlock.C81_progress`

### C82 Listeners and task functions may call the scheduler without deadlock

*Plan.* Same model; callbacks indexed by nesting depth. Proved under three conditions (no waiting shutdown, executors that run elsewhere, no calls in callbacks that need executor_lock); each condition has a witness, because the code does deadlock without it.

*Outcome: partial.* Proved when no call waits for workers, executors run functions and callbacks elsewhere, and callbacks do not need the set of executors. Without any of these the code deadlocks: four witnesses.

Theorems: `Asyncz.Deadlock.C82_reentrant_partial`, `Asyncz.Deadlock.C82_shutdown_witness`, `Asyncz.Deadlock.C82_done_witness`, `Asyncz.Deadlock.C82_debug_witness`, `Asyncz.Deadlock.C82_executors_witness`

### C83 No scheduled run is lost or made twice

*Plan.* Induction over the history (`Served`), with a per-pass lemma drawn from the processing-pass model (C24, C31) and a relation `Answered` for the trigger's successive times; then composed with the trigger theorems C24 for interval and cron.

*Outcome: proved.* C83_none_lost: any lawful store and any regular forward trigger, coalescing or not. C83_interval and C83_cron: run times reported by the passes are exactly the closed-form set, for tasks that do not coalesce.

Theorems: `Asyncz.Sched.C83_none_lost`, `Asyncz.Sched.C83_interval`, `Asyncz.Sched.C83_cron`

### C84 A scheduled task runs at exactly the times its trigger describes

*Plan.* Composition: first answer of the trigger (C11, C17/C18) put in the store by add_task or start (C34), then C83.

*Outcome: proved.* Composition of the trigger, store, start and pass models. Schedulers with a lock path are excluded in the statement when tasks wait for start: the witness shows what their startup delay does.

Theorems: `Asyncz.Sched.C84_interval`, `Asyncz.Sched.C84_cron`, `Asyncz.Sched.C84_date`, `Asyncz.Sched.C84_startup_delay_witness`

### C85 A due run is submitted within the latency of the event loop

*Plan.* `Waits`: a stretch of history with the deadline that the loop's latency gives for the next pass; invariant by induction using C33 at the beginning and after each pass; the serving pass by the pass specification (C31).

*Outcome: proved.* Forced runs and raising passes are excluded in the statement because the code loses the wake-up then (C33_forced_run_witness, C33_raise_witness).

Theorems: `Asyncz.Sched.C85_punctual`

### C86 A one-shot command does only what it was asked

*Plan.* Model of a command as start, call, queued wake-ups, shutdown (Model/CliRun.lean); frame lemmas for passes with nothing due; counterexamples for due tasks, tasks with another executor and shutdown tasks.

*Outcome: partial.* Proved when nothing is due and no shutdown task is stored; otherwise false: `asyncz list` submits due tasks, deletes due tasks whose executor is not 'default', and runs and deletes shutdown tasks (witnesses).

Theorems: `Asyncz.CliRun.C86_only_the_call_partial`, `Asyncz.CliRun.C86_read_partial`, `Asyncz.CliRun.C86_due_witness`, `Asyncz.CliRun.C86_executor_witness`, `Asyncz.CliRun.C86_shutdown_witness`

### C87 What a command does to a task lasts, whatever else is due

*Plan.* On the model of C86: the effect of the call (C36, C38), a pass leaves tasks alone that are not due, even if it raises (Lemmas/SchedFrame.lean), and shutdown keeps all but shutdown tasks (C40).

*Outcome: proved.* For stores that keep their data when closed (SQL, MongoDB: `mixedDurable`), tasks that are no shutdown tasks, and new run times that have not come before the command ends.

Theorems: `Asyncz.CliRun.C87_pause`, `Asyncz.CliRun.C87_remove`, `Asyncz.CliRun.C87_resume`, `Asyncz.CliRun.C87_update`, `Asyncz.CliRun.C87_add`, `Asyncz.CliRun.C87_unknown`

### C88 get_scheduler_info and doctor tell the truth

*Plan.* Scheduler model extended with the start time (Model/SchedInfo.lean); invariant by induction over histories; counts over the stores' lawful listing.

*Outcome: proved.* For every reachable state of the scheduler model extended with the start time. The five checks of doctor one by one (C88_checks).

Theorems: `Asyncz.Sched.C88_clock`, `Asyncz.Sched.C88_since`, `Asyncz.Sched.C88_counts`, `Asyncz.Sched.C88_doctor`, `Asyncz.Sched.C88_doctor_command`, `Asyncz.Sched.C88_checks`

### C89 What a command submits is run to its end

*Plan.* A model of the event loop's ready queue (Model/CliLoop.lean): submission, rounds, cancellation at the end of asyncio.run.

*Outcome: partial.* Proved: the command ends after one round; functions and coroutines that never suspend are run to their end by `asyncz run`, due functions too. False otherwise: coroutines that suspend are abandoned, due coroutines never entered, no outcome is ever reported (witnesses). In a loop that goes on every coroutine is ended and reported (C89_daemon). C89_daemon_function: a plain function is reported in the second round of a loop that goes on.

Theorems: `Asyncz.CliLoop.C89_run_partial`, `Asyncz.CliLoop.C89_coroutine_witness`, `Asyncz.CliLoop.C89_silent_witness`, `Asyncz.CliLoop.C89_due_witness`, `Asyncz.CliLoop.C89_daemon`, `Asyncz.CliLoop.C89_daemon_function`

### C90 asyncz start loads the jobs of its file or module

*Plan.* Loader model on top of the task object model (Model/CliStart.lean) and C25.

*Outcome: partial.* The claim is false of the code: every non-empty list of jobs fails with nothing added (witness, for all lists); the empty list is loaded.

Theorems: `Asyncz.CliStart.C90_load_partial`, `Asyncz.CliStart.C90_witness`

### C91 start --watch reloads when a watched file changed

*Plan.* Model of the watcher (Model/CliStart.lean), induction over the polls.

*Outcome: proved.* As stated; C91_once needs all watched files to be present. C91_missing_witness shows the consequence that a missing file makes every poll reload.

Theorems: `Asyncz.CliStart.C91_watch`, `Asyncz.CliStart.C91_once`, `Asyncz.CliStart.C91_targets`, `Asyncz.CliStart.C91_missing_witness`

### C92 A bootstrap path gives one scheduler per process

*Plan.* Model with an abstract world of objects (Model/CliStart.lean); invariant over sequences of loads.

*Outcome: proved.* As stated. C92_twice_witness: a scheduler class without get_scheduler is instantiated twice by one load.

Theorems: `Asyncz.CliStart.C92_bootstrap`, `Asyncz.CliStart.C92_twice_witness`, `Asyncz.CliStart.C92_source`

### C93 An OrTrigger task runs at the union of its members' schedules

*Plan.* Triggers as trees (Model/TrigTree.lean); nested unions reduce to their leaves by mutual induction; the chain of answers enumerates a set (induction), composed with C83/C84. Intervals, dates and start dates: counterexamples.

*Outcome: partial.* Proved for unions of cron triggers without start date, of any depth, in zones of constant offset, for every history of passes; after the first run also with dates among the members. False otherwise: of several dates only the earliest is run; of several intervals only the shortest counts after the first run; a member's start date is ignored after the first run.

Theorems: `Asyncz.Sched.C93_after_first_partial`, `Asyncz.Sched.C93_union_partial`, `Asyncz.Sched.C93_dates_witness`, `Asyncz.Sched.C93_intervals_witness`, `Asyncz.Sched.C93_start_witness`

### C94 Every flash message is shown once, in the answer to its request

*Plan.* Session as a list of messages, controllers by what they add, take out and show (Model/DashWeb.lean); induction over the visits. The redirecting controllers the dashboard does not route: conservation law, counterexample.

*Outcome: proved.* Proved for all sequences of requests to the routed controllers. For the redirecting controllers, which exist but are not routed: conservation as long as no fragment or sign-in comes next, with a counterexample otherwise. A request that ends in an exception is taken not to save the session. C94_look: the colour and icon of each level.

Theorems: `Asyncz.DashWeb.C94_shown_once`, `Asyncz.DashWeb.C94_redirects_conserve`, `Asyncz.DashWeb.C94_fragment_witness`, `Asyncz.DashWeb.C94_look`

### C95 Messages are shown as text

*Plan.* The HTML as text, with a small scanner of tags as specification; induction over the messages. Counterexample for every tag.

*Outcome: partial.* Proved for texts without '<'. False otherwise: nothing is escaped; any tag without a colon given as the callable of a new task becomes a tag of the response.

Theorems: `Asyncz.DashWeb.C95_text_partial`, `Asyncz.DashWeb.C95_injection_witness`

### C96 A task's links lead to that task

*Plan.* Links as texts, RFC 3986 resolution, percent decoding, first-match routing over segments (Model/DashWeb.lean); lemmas about splitting by induction. Counterexamples.

*Outcome: partial.* Proved for plain ids at any mount point of at least one segment. False for the id 'create' (details), ids with '/', '?', '#', '%', ids that look like a URL with a scheme, and at the root, where details and edit links lead to another host. C96_bulk: the bulk links. unquote_escape: escapes in paths.

Theorems: `Asyncz.DashWeb.C96_links_partial`, `Asyncz.DashWeb.C96_ids_witness`, `Asyncz.DashWeb.C96_colon_witness`, `Asyncz.DashWeb.C96_root_witness`, `Asyncz.DashWeb.C96_bulk`, `Asyncz.DashWeb.unquote_escape`

### C97 Signing in leads to the page asked for

*Plan.* Composition of the gate's refusal (C46's model) with query parsing and the form; counterexamples for retries, special characters, foreign targets.

*Outcome: partial.* Proved for paths without '&', '#', '%', '+' and a first attempt that succeeds. False otherwise: a failed attempt forgets the target, special characters are cut or decoded, the query string is lost, and any address given as `next` is followed (open redirect).

Theorems: `Asyncz.DashWeb.C97_back_partial`, `Asyncz.DashWeb.C97_retry_witness`, `Asyncz.DashWeb.C97_query_witness`, `Asyncz.DashWeb.C97_open_redirect_witness`

### C98 The dashboard's links carry the prefix under which it is reached

*Plan.* get_effective_prefix as a function on texts, composed with C48's middleware; case analysis. Counterexamples.

*Outcome: partial.* Proved for normal prefixes, also end to end behind a trusted proxy. False if the root path ends with the mount point's text by itself, for nested mounts without a root path, and for a setting made of slashes.

Theorems: `Asyncz.DashWeb.C98_prefix_partial`, `Asyncz.DashWeb.C98_proxy`, `Asyncz.DashWeb.C98_prefix_witness`, `Asyncz.DashWeb.normalizePrefix_isNormal`

### C99 In zones of constant offset an interval trigger runs through its grid

*Plan.* Total of C11-C13 over the chain of calls (Props/Facets.lean), induction over the number of calls.

*Outcome: proved.* The chain of answers in full, for every number of calls.

Theorems: `Asyncz.Interval.C99_interval_schedule`

### C100 In zones of constant offset a cron trigger finds the next matching time

*Plan.* Termination (C19) with correctness (C17, C18) as one total statement (Props/Facets.lean).

*Outcome: proved.* Total correctness; termination in every lawful zone (C19_cron_terminates).

Theorems: `Asyncz.Cron.C100_cron_schedule`, `Asyncz.Cron.C19_cron_terminates`

### C101 Scheduler sections under a thread lock exclude each other

*Plan.* Invariant of the transition system of Model/Locks.lean (see C44).

*Outcome: proved.* The clauses of C44 that hold without restriction.

Theorems: `Asyncz.Locks.C44_threads_exclusive`, `Asyncz.Locks.File.C44_files_released`

### C102 A call that validation accepts binds

*Plan.* Against a declarative specification of Python's binding (Spec/Call.lean, see C45).

*Outcome: proved.* The half of C45 that holds without restriction.

Theorems: `Asyncz.Call.C45_accepted`

### C103 An AsyncIOScheduler never has two event loop threads

*Plan.* Invariant over histories (Model/Loops.lean, see C76).

*Outcome: proved.* The clause of C76 that holds without restriction.

Theorems: `Asyncz.Loops.C76_one_loop`

### C104 An executor begins each accepted run at most once, in order, and loses none

*Plan.* Invariant over histories (Model/Pool.lean, see C78).

*Outcome: proved.* The clauses of C78 that hold without restriction.

Theorems: `Asyncz.Pool.C78_once`, `Asyncz.Pool.C78_not_cancelled`, `Asyncz.Pool.C78_workers`

### C105 The dashboard records every scheduler event exactly once

*Plan.* Refinement of a specification over histories (Model/Install.lean, see C80).

*Outcome: proved.* The clauses of C80 that hold without restriction.

Theorems: `Asyncz.Install.C80_recorded`, `Asyncz.Install.C80_one`

### C106 What `asyncz start` starts, it stops, one at a time

*Plan.* The coroutine as a state machine with an event loop and answers of the world for each step (Model/CliLife.lean); invariants by induction over the answers; a trace specification (Spec/CliLife.lean). Counterexamples, each for all runs that reach the place.

*Outcome: partial.* Proved for all runs: started once, stopped at most once, only after the stop hook. Stopped at the end unless the start hook or the last call of the stop hook fails or Ctrl+C comes while the command sleeps (then never stopped). One at a time only with a NativeAsyncIOScheduler: with an AsyncIOScheduler every reload starts the new scheduler before the old one stops; without --watch its coroutine shutdown tasks never run. With --watch or --standalone the command goes on until something fails or interrupts; with neither it starts, stops and ends.

Theorems: `Asyncz.CliLife.C106_orderly`, `Asyncz.CliLife.C106_all_stopped_partial`, `Asyncz.CliLife.C106_one_at_a_time_partial`, `Asyncz.CliLife.C106_overlap_witness`, `Asyncz.CliLife.C106_start_hook_witness`, `Asyncz.CliLife.C106_stop_hook_witness`, `Asyncz.CliLife.C106_ctrl_c_witness`, `Asyncz.CliLife.C106_failed_reload_witness`, `Asyncz.CliLife.C106_shutdown_coroutines_witness`, `Asyncz.CliLife.C106_stays_up`, `Asyncz.CliLife.C106_standalone`, `Asyncz.CliLife.C106_one_shot`

### C107 Log messages of worker processes arrive once and in order

*Plan.* Pipe of pieces with a capacity, processes with what they have still to write, the receiving thread (Model/PoolLog.lean); conservation invariant by induction over the operations; progress. Counterexamples for crashes and for wait=False.

*Outcome: partial.* Proved for messages the operating system writes at once, logging methods that do not raise, processes that are not killed. Otherwise the thread ends with an exception: nothing more is passed on and, with a full pipe, workers are stuck for ever. shutdown waits for all worker processes whatever wait is.

Theorems: `Asyncz.PoolLog.C107_in_order_partial`, `Asyncz.PoolLog.C107_complete_partial`, `Asyncz.PoolLog.C107_returns_partial`, `Asyncz.PoolLog.C107_waits_witness`, `Asyncz.PoolLog.C107_crash_witness`, `Asyncz.PoolLog.C107_interleaved_witness`

### C108 A shape restores what it dumped

*Plan.* Classes as lists of fields with constructor semantics, nested values (Model/ShapeObj.lean); mutual structural induction. Counterexamples.

*Outcome: partial.* Proved for classes all of whose fields are constructor parameters and objects with plain data. False otherwise: nested objects come back as mappings, private attrs attributes and init=False fields cannot be restored, with exclude_none a None becomes the default; msgspec dumps ignore exclude_none. With exclude_none: proved if the attributes that are None have None as default.

Theorems: `Asyncz.ShapeObj.C108_round_trip_partial`, `Asyncz.ShapeObj.C108_exclude_none_partial`, `Asyncz.ShapeObj.C108_instance`, `Asyncz.ShapeObj.C108_nested_witness`, `Asyncz.ShapeObj.C108_hidden_witness`, `Asyncz.ShapeObj.C108_none_witness`, `Asyncz.ShapeObj.C108_msgspec_witness`

### C109 A shape's field metadata tells how a class is constructed

*Plan.* Same model; case analysis over defaults with induction over the fields. Counterexamples.

*Outcome: partial.* Requiredness proved for classes whose fields are all parameters, defaults for those that are values. False: factories (and required fields of Structs) show a marker object of the library; fields that are no parameters are shown like the others.

Theorems: `Asyncz.ShapeObj.C109_required_partial`, `Asyncz.ShapeObj.C109_default_partial`, `Asyncz.ShapeObj.C109_factory_witness`, `Asyncz.ShapeObj.C109_msgspec_witness`, `Asyncz.ShapeObj.C109_hidden_witness`

### C110 Processes that share a file store lose no task

*Plan.* Small-step processes over one path: open, flock, truncate, buffered write, unlock, close, unlink (Model/FileRace.lean); invariants over every interleaving. Counterexample interleavings for every record.

*Outcome: partial.* Proved: the lock is exclusive always; readers alone see the task; without readers nothing is lost and a whole record is left; records larger than the buffer can be read and updated together. False in general: the bytes are flushed after the lock is given back and a reader removes a file it cannot decode, so a reader beside an add or update removes the task; looking up a missing id removes a file added meanwhile; two updates mix their bytes.

Theorems: `Asyncz.FileRace.readers_share_partial`, `Asyncz.FileRace.writer_is_alone`, `Asyncz.FileRace.writers_lose_nothing_partial`, `Asyncz.FileRace.writers_leave_whole_record_partial`, `Asyncz.FileRace.large_updates_and_readers_partial`, `Asyncz.FileRace.reader_removes_added_task`, `Asyncz.FileRace.reader_removes_large_added_task`, `Asyncz.FileRace.reader_removes_updated_task`, `Asyncz.FileRace.lookup_of_missing_removes_added`, `Asyncz.FileRace.updates_mix`

### C111 A dashboard list page shows the newest matching entries, up to the number asked for

*Plan.* From the parameters through the filters to the storage queries (Model/ListPages.lean over the storages of C48-C51); which entries fit is specified independently (Spec/ListPages.lean), rows are characterised as the newest that fit.

*Outcome: partial.* Proved for all recorded sequences and parameters. Partial: audit ids must be distinct (random UUIDs in the code) and run ids must not collide (C49); a task or run id that begins or ends with a blank cannot be filtered for because the pages strip the field (witness). C111_audit_record: the fields of an audit record.

Theorems: `Asyncz.ListPages.C111_events`, `Asyncz.ListPages.C111_audit_partial`, `Asyncz.ListPages.C111_history_partial`, `Asyncz.ListPages.C111_logs`, `Asyncz.ListPages.C111_run_page`, `Asyncz.ListPages.C111_event_choices`, `Asyncz.ListPages.C111_audit_choices`, `Asyncz.ListPages.log_blank_witness`, `Asyncz.ListPages.ascii_lawful`, `Asyncz.ListPages.C111_audit_record`

### C112 The overview, runtime and instances pages agree with the scheduler

*Plan.* Invariant over every history of calls that stored tasks carry the alias of their store (Lemmas/Home.lean); the rows are compared with the stores themselves. Witnesses where the pages are wrong.

*Outcome: partial.* Proved for every history of calls in which no update changes a task's store alias and no added store brings tasks with another alias; aliases are not empty. False otherwise: after update_task(store_alias=...) the task stays in its store but is counted for the other (witness). The last run on the overview is looked up by task id alone, so tasks with the same id in different stores share it (witness).

Theorems: `Asyncz.Sched.C112_runtime_partial`, `Asyncz.Sched.C112_instances`, `Asyncz.Sched.C112_home_partial`, `Asyncz.Sched.labelled_exec`, `Asyncz.Sched.memory_closesClean`, `Asyncz.Sched.C112_runtime_example`, `Asyncz.Sched.runtime_relabel_witness`, `Asyncz.Sched.home_shared_run_witness`

### C113 A setting has the value of its environment variable

*Plan.* Classes with annotations (objects or source texts), name lookup of typing.get_type_hints, conversion and the construction loop (Model/Settings.lean) against a declarative reading of annotations and texts (Spec/Settings.lean).

*Outcome: partial.* Proved for the settings annotated in the class itself. False for inherited ones: typing.get_type_hints always fails on BaseSettings, whose method `dict` hides the builtin in the annotation dict[str, Any], so a subclass reads only its own annotations from the environment and dumps only them (inherited_witness). The texts of annotations other than a name or a subscripted name are not understood: any SECRET_KEY in the environment makes Settings() raise (secret_key_witness). Lists are read character by character. post_init and include_properties are not modelled; the environment has precedence over keyword arguments.

Theorems: `Asyncz.Settings.C113_value_partial`, `Asyncz.Settings.C113_raises`, `Asyncz.Settings.C113_dict_partial`, `Asyncz.Settings.hints_own`, `Asyncz.Settings.secret_key_witness`, `Asyncz.Settings.inherited_witness`, `Asyncz.Settings.C113_example`

### C114 The page of a task shows that task, its next runs, its last runs and its last messages

*Plan.* The controller as a function of the scheduler state, the run history and the log buffer (Model/TaskPage.lean), composed from the models of C38, C41, C63 and C66.

*Outcome: partial.* The page raises (HTTP 500) for a task whose arguments cannot be written as JSON (C114_found_partial, third part). Runs are looked up by id alone, so runs of a removed task with the same id show too; no two runs may share a run id. Nobody calls the scheduler while the page is built; the HTML is not modelled.

Theorems: `Asyncz.Sched.C114_found_partial`, `Asyncz.Sched.C114_preview`, `Asyncz.Sched.C114_runs_logs_partial`, `Asyncz.Sched.C114_example`, `Asyncz.Sched.taskPage_parts`

### C115 A scheduler wrapped around ASGI applications runs exactly while one of them is up

*Plan.* Lifespan messages as steps over the scheduler model of C30 with the kept exit stacks (Model/Asgi.lean); application up = its last message was a startup; invariant: the kept stacks are those of the applications that are up, the depth of nesting is their number.

*Outcome: partial.* Proved for any number of applications and any messages if every startup works and none is sent to an application that is up. False otherwise: started twice, the wrapped application keeps one exit stack and the scheduler never stops; after a failed startup the next is answered with complete though the scheduler does not run. An AsyncIOScheduler stops when the event loop gets round to it. monkay's LifespanHook is taken as described in the model.

Theorems: `Asyncz.Asgi.C115_running_partial`, `Asyncz.Asgi.C115_running_async_partial`, `Asyncz.Asgi.C115_turns`, `Asyncz.Asgi.C115_example`, `Asyncz.Asgi.exMsgs_ok`, `Asyncz.Asgi.C115_twice_witness`, `Asyncz.Asgi.C115_failed_witness`, `Asyncz.Asgi.C115_failed`

### C116 A cron field is read as it is written

*Plan.* The language as an inductive relation on texts (Spec/CronText.lean), independent of the regular expressions; both directions, for one expression by a characterisation of every parser, for lists by one of the splitting (Props/CronText.lean).

*Outcome: partial.* Exact (if and only if) for the language the code has. This is wider than the documented one: the classes for names, positions and `last` are not anchored, so text behind them is ignored (witness); `*` and numbers may be followed by a line break. On the documented language the reading is exact. ASCII only.

Theorems: `Asyncz.Cron.C116_field_partial`, `Asyncz.Cron.C116_documented`, `Asyncz.Cron.C116_refused`, `Asyncz.Cron.compile1_iff`, `Asyncz.Cron.lists_iff`, `Asyncz.Cron.C116_trailing_witness`

### C117 A scheduler that is killed and started again skips no run

*Plan.* A crash point is a number of stores done, of tasks done, and whether the next one was handed over; `crashPass` is the pass up to there (Model/Crash.lean), linked to the whole pass by `crash_at_end`, `task_in_two_steps`, `crash_between`. Histories are an inductive relation with completed passes, killed passes followed by a real `start`, and anything else that leaves the task alone; by induction the hand-overs form a chain in which only deals that were not stored are repeated (Props/Crash.lean).

*Outcome: proved.* Handed to the executor: what an executor had accepted but not finished dies with the process and is not repeated once the next time is stored (that is not part of the claim). `C117_replace_witness` shows why the program must not replace the task when it starts: the missed runs are skipped. For the file store, whose writes are not atomic, see C118. crash_after_store: the crash points fit together at the end of a store. C117_cron: the same for cron triggers. C117_calm_*: the same in any time zone, over a period without a change of the clocks.

Theorems: `Asyncz.Sched.C117_recovery`, `Asyncz.Sched.C117_interval`, `Asyncz.Sched.crash_at_end`, `Asyncz.Sched.task_in_two_steps`, `Asyncz.Sched.crash_between`, `Asyncz.Sched.C117_replace_witness`, `Asyncz.Sched.crash_after_store`, `Asyncz.Sched.C117_cron`, `Asyncz.Sched.C117_calm_interval`, `Asyncz.Sched.C117_calm_cron`

### C118 A process killed while it changes a file store leaves the old or the new task

*Plan.* The operations system call by system call (Model/FileRace.lean), stopped after k of them; the content of the file for every k, and what a reader makes of it (Props/FileCrash.lean).

*Outcome: partial.* Additions and removals are all or nothing. An update truncates the file before the new content is written (and small records are written only when the file is closed): killed in between, the task is lost for good, since the next reader removes the empty file (witness, for every task). One write call is one step.

Theorems: `Asyncz.FileRace.C118_killed_partial`, `Asyncz.FileRace.C118_not_killed`, `Asyncz.FileRace.C118_lost_witness`

### C119 The answers of the control application tell how the call ended

*Plan.* Spec/RemoteHttp.lean gives the call an endpoint stands for (StandsFor), the statuses (Code), the texts (Words) and the meaning of an answer (Told), none of them with the handlers; Props/RemoteHttp.lean proves C119_told for every request by going through the handlers, C119_success and C119_refused read it backwards from the status, C119_unquote proves that quoted paths and queries are read as percent-encoding says, with stray percent signs kept. C119_done_witness: 400 does not mean that nothing was done.

*Outcome: proved.* The arguments read from the bodies of requests to create or update a task are not part of this property (C65 has them for the requests the client sends). C119_body: bodies that are not objects.

Theorems: `Asyncz.Remote.C119_told`, `Asyncz.Remote.C119_success`, `Asyncz.Remote.C119_refused`, `Asyncz.Remote.C119_unquote`, `Asyncz.Remote.C119_done_witness`, `Asyncz.Remote.C119_body`

### C120 A remote call ends in a documented way and is made at most once

*Plan.* Model/RemoteClient.lean models the client alone (constructor, url, headers, reading of the answer, translation of errors) against any answer, and a network that delivers, refuses, loses the answer or lets a stranger answer. Spec/RemoteClient.lean says which exception an error answer stands for (Means). C120_answer_partial, C120_documented_partial, C120_refused and C120_empty go through the answers; C120_once gets at-most-once from C65; C120_through proves that with a network that delivers this client is the one of C65. Partial because answers that are not JSON objects and silence raise other exceptions (C120_undocumented_witness).

*Outcome: partial.* Partial: the code violates it for answers that are not JSON objects and for a worker that does not answer in time (witnesses). Custom transports are not modelled beyond the constructor; redirects are followed by the library. C120_snapshot and C120_result: exactly the data with all fields is a snapshot, and results are what the data says.

Theorems: `Asyncz.RemoteClient.C120_answer_partial`, `Asyncz.RemoteClient.C120_documented_partial`, `Asyncz.RemoteClient.C120_refused`, `Asyncz.RemoteClient.C120_empty`, `Asyncz.RemoteClient.C120_url`, `Asyncz.RemoteClient.C120_make`, `Asyncz.RemoteClient.C120_headers`, `Asyncz.RemoteClient.C120_through`, `Asyncz.RemoteClient.C120_once`, `Asyncz.RemoteClient.C120_unreachable`, `Asyncz.RemoteClient.C120_lookup`, `Asyncz.RemoteClient.C120_running`, `Asyncz.RemoteClient.C120_undocumented_witness`, `Asyncz.RemoteClient.C120_empty_url_witness`, `Asyncz.RemoteClient.C120_lost_answer_witness`, `Asyncz.RemoteClient.C120_snapshot`, `Asyncz.RemoteClient.C120_result`

### C121 Between two changes of the clocks a task runs at exactly its times, in any time zone

*Plan.* Props/CalmRun.lean: the theorems about triggers in a steady period (Props/Steady.lean) give answers that depend on the previous run only and go forward up to the latest pass; C83_none_lost then gives what the passes report (C121_interval, C121_cron); with the first answer after add_task or start this is C121_added_interval and C121_added_cron.

*Outcome: proved.* For cron triggers some matching time after the latest pass must lie in the period too (else the answer after it is outside the period) and not after the end date. Also through deaths of the process (C117_calm_*).

Theorems: `Asyncz.Sched.C121_interval`, `Asyncz.Sched.C121_cron`, `Asyncz.Sched.C121_added_interval`, `Asyncz.Sched.C121_added_cron`, `Asyncz.Sched.C117_calm_interval`, `Asyncz.Sched.C117_calm_cron`

### C122 The timeline shows each task's own upcoming runs

*Plan.* Model/Timeline.lean over the scheduler model; previews are characterised by preview_iff, every listed task is found by its id (listed_located), the listing is a permutation (infos_all): C122_timeline; own runs if ids are unique (C122_own_partial); C122_answers; C122_happens_partial from C41. Witnesses: tasks of the same id in two stores, paused tasks.

*Outcome: partial.* The code violates the property for tasks with equal ids in several stores and for paused tasks (witnesses); proved if ids are unique, and for tasks that have a next run time.

Theorems: `Asyncz.Timeline.C122_timeline`, `Asyncz.Timeline.C122_own_partial`, `Asyncz.Timeline.C122_answers`, `Asyncz.Timeline.C122_happens_partial`, `Asyncz.Timeline.C122_same_id_witness`, `Asyncz.Timeline.C122_paused_witness`, `Asyncz.Timeline.C122_vanished`

### C123 The scheduler's promises hold whichever built-in stores are used

*Plan.* The store models are put below the scheduler model as one sum of the five; a simulation (Agree, OpsAgree.lean) shows that passes, crashes in passes, additions and starts do the same over the stores as they are and over lawful stores, as long as file stores accept the ids and no Redis task has a time before 1970; then C83, C84 and C117 apply. Witness: in Redis a task with a time before 1970 is never run and the scheduler wakes without pause.

*Outcome: partial.* Proved for tasks that fit their stores (ids that a file store accepts, in Redis no times before 1970 - the code violates the property for those, witness), serialisable tasks, zones of constant offset, without jitter and coalescing; deaths between store calls (within a write of a file store see C118). C123_none_lost and C123_recovery hold for every trigger whose answers go forward, with or without coalescing; C123_calm_* in zones with clock changes, over periods without one. C123_recovered_calm_*: crashes in any time zone, over a period without a change of the clocks.

Theorems: `Asyncz.Sched.C123_pass`, `Asyncz.Sched.C123_interval`, `Asyncz.Sched.C123_cron`, `Asyncz.Sched.C123_added`, `Asyncz.Sched.C123_recovered`, `Asyncz.Sched.C123_redis_witness`, `Asyncz.Sched.C123_none_lost`, `Asyncz.Sched.C123_recovery`, `Asyncz.Sched.C123_added_cron`, `Asyncz.Sched.C123_added_date`, `Asyncz.Sched.C123_recovered_cron`, `Asyncz.Sched.C123_calm_interval`, `Asyncz.Sched.C123_calm_cron`, `Asyncz.Sched.C123_recovered_calm_interval`, `Asyncz.Sched.C123_recovered_calm_cron`

### C124 Every scheduled run is in the run history, once, with how it ended

*Plan.* Model/Flow.lean joins the observations of the scheduler model, run_task of the executor model and the history model; an invariant (permutation) relates the reports about a run to the submissions and the ended runs; with C83 every run time occurs once, so the reports about it are one of four lists, whose effect on the record follows from C49. Witness: a task in memory relabelled by update_task(store_alias=...) is recorded twice, once as running for ever.

*Outcome: partial.* Proved for any lawful store and any regular forward trigger (interval and cron in closed form), any order of ends. Missing: the task must be labelled with its own store (the code violates the property otherwise, witness), no BaseException escapes (C29), run identifiers do not collide and listeners are called one at a time (C49, where the code violates the property too); room for all runs in the history. The same over every mixture of the built-in stores (C124_stores_*). C124_result_partial: value, exception and traceback of a run that has ended, whatever the scheduler did and without room. C124_calm_*: any time zone, over a period without a change of the clocks.

Theorems: `Asyncz.Flow.C124_recorded_partial`, `Asyncz.Flow.C124_interval_partial`, `Asyncz.Flow.C124_cron_partial`, `Asyncz.Flow.C124_relabelled_witness`, `Asyncz.Flow.C124_stores_partial`, `Asyncz.Flow.C124_stores_interval_partial`, `Asyncz.Flow.C124_stores_cron_partial`, `Asyncz.Flow.C124_result_partial`, `Asyncz.Flow.C124_calm_interval_partial`, `Asyncz.Flow.C124_calm_cron_partial`

### C125 Every run of a recurring task is submitted once and on time

*Plan.* `Driven`: passes that the event loop makes within a latency of wake-ups and timers; `InTime`: when a run counts as on time. Invariant: the next run time of the task is within reach of the current deadline; C83 and C85 combined.

*Outcome: proved.* Histories without forced runs and without passes that raise: the code loses the wake-up there (C33 witnesses). C125_added_*: from add_task on, in any zone over a period without a change of the clocks. C125_stores_*: the same over any mixture of the built-in stores, for tasks that fit their stores (C123).

Theorems: `Asyncz.Sched.C125_on_time`, `Asyncz.Sched.C125_interval`, `Asyncz.Sched.C125_cron`, `Asyncz.Sched.C125_calm_interval`, `Asyncz.Sched.C125_calm_cron`, `Asyncz.Sched.C125_added_interval`, `Asyncz.Sched.C125_added_cron`, `Asyncz.Sched.C125_told`, `Asyncz.Sched.C125_general`, `Asyncz.Sched.C125_stores`, `Asyncz.Sched.C125_stores_interval`, `Asyncz.Sched.C125_stores_cron`, `Asyncz.Sched.C125_stores_added_interval`, `Asyncz.Sched.C125_stores_added_cron`

### C126 Cron expressions, cron fields and tasks are equal when they are the same

*Plan.* `exprEq` with Python's choice of the reflected method, `listEq` with its identity shortcut; case analysis and induction; witnesses where the code deviates.

*Outcome: partial.* Exact except for the three deviations of the code, each with a witness: weekday positions raise, steps of ranges and names of fields are not compared. C126_field_symmetric and C126_field_names: for all pairs of fields, of whatever names.

Theorems: `Asyncz.Cron.C126_expr_partial`, `Asyncz.Cron.C126_unequal`, `Asyncz.Cron.C126_symmetric`, `Asyncz.Cron.C126_field_partial`, `Asyncz.Cron.C126_field_self`, `Asyncz.Cron.C126_task`, `Asyncz.Cron.C126_position_witness`, `Asyncz.Cron.C126_step_witness`, `Asyncz.Cron.C126_name_witness`, `Asyncz.Cron.C126_position_field_witness`, `Asyncz.Cron.C126_field_symmetric`, `Asyncz.Cron.C126_field_names`

### C127 A trigger's description determines its schedule

*Plan.* `describe` as a text-producing function over a nested type of triggers; unique readability by mutual recursion, using the round trip of cron expressions (C21) for fields; witness for the zero range, where the code deviates.

*Outcome: partial.* For all nested triggers without a cron range 0-0 with a step, which is printed without its end (witness), and for abbreviations of time zones without a bracket. Fractions of a second of a date are not described.

Theorems: `Asyncz.Describe.C127_description_partial`, `Asyncz.Describe.C127_zero_range_witness`

### C128 Every call of a shape ends in a result or in the documented shape error

*Plan.* The operations as functions of a `World` giving the outcome (value or exception) of every library call; case analysis over shapes and outcomes for all worlds; witnesses where errors leak.

*Outcome: partial.* Complete for dump of the dataclass, msgspec and any shapes, missing libraries, instances, results, causes and schemas. For the other operations the code lets foreign errors through (witnesses): types that are no classes or have no name, the second attempt of PydanticShape.dump, AttrsShape.dump, and failing field inspection. C128_dump_mode: the mode of a dump.

Theorems: `Asyncz.ShapeCalls.C128_construct_partial`, `Asyncz.ShapeCalls.C128_load_partial`, `Asyncz.ShapeCalls.C128_load`, `Asyncz.ShapeCalls.C128_instance`, `Asyncz.ShapeCalls.C128_result`, `Asyncz.ShapeCalls.C128_cause`, `Asyncz.ShapeCalls.C128_library`, `Asyncz.ShapeCalls.C128_dump`, `Asyncz.ShapeCalls.C128_dump_partial`, `Asyncz.ShapeCalls.C128_missing`, `Asyncz.ShapeCalls.C128_own_dependency`, `Asyncz.ShapeCalls.C128_fields`, `Asyncz.ShapeCalls.C128_schema`, `Asyncz.ShapeCalls.C128_metadata_partial`, `Asyncz.ShapeCalls.Witness.C128_type_witness`, `Asyncz.ShapeCalls.Witness.C128_name_witness`, `Asyncz.ShapeCalls.Witness.C128_dump_witness`, `Asyncz.ShapeCalls.Witness.C128_fields_witness`, `Asyncz.ShapeCalls.C128_dump_mode`

### C129 The commands that show something write one JSON document with --json, and leave schedulers as they found them.

*Plan.* The commands as functions from the outcomes of the calls they make to the sequence of what is printed and done; case analysis over all outcomes; a witness for the note that precedes the JSON.

*Outcome: partial.* Complete but for one combination: with both --bootstrap and --store a note precedes the JSON (C129_note_witness). C129_succeeds and C129_starts: what success means and which commands start the scheduler.

Theorems: `Asyncz.CliOut.C129_json_partial`, `Asyncz.CliOut.C129_note_witness`, `Asyncz.CliOut.C129_text`, `Asyncz.CliOut.C129_temporary`, `Asyncz.CliOut.C129_bootstrapped`, `Asyncz.CliOut.C129_strict`, `Asyncz.CliOut.C129_fails`, `Asyncz.CliOut.C129_succeeds`, `Asyncz.CliOut.C129_starts`

## Deviations of the code found while modelling

Proved witnesses carry their theorem's property; the others were found by reading.

### Triggers and dates
* Interval, cron, or/and triggers compare and add wall-clock times: around a change of the clocks intervals are not elapsed time, gap times
  are returned, the repeated hour is skipped, end dates are passed (C11-C13, C15, C17-C19, C24).
* `datetime_ceil` forgets the fold (C54). `to_datetime` reads `.5` as 5 microseconds and accepts a trailing newline (C51).
* Restored interval triggers lose `interval_size` (C23); jitter accumulates over runs (C22); AndTrigger hangs after its first run (C16).
* Cron text: ranges ending in 0 do not round-trip, trailing text is accepted (C21); from_crontab: weekday 0 is Monday, 7 is rejected, day and weekday are and-ed (C56).
* IntervalTrigger without timezone takes its default start in the system zone (C55).

### Tasks and scheduler
* `add_task(task, id=...)` always raises ValueError and a failed add_task leaves `submitted=True`; a fractional grace time cannot be persisted.
* An inherited class method is restored bound to the base class (C26). `check_callable_args` rejects `f(a=1)` for `def f(a=0, /, **kw)` (C45).
* Pausing a pending task is lost at start (C36); name-clashing pending tasks are dropped silently at start (C34); `resume_task(id, store)` on a
  stopped scheduler may change another pending task (C38); resume_task on a shutdown task removes it; update_task with store alias "" does not persist.
* A plugin class of the wrong kind is cached before it is checked: the second use of the alias succeeds; a new target of a used alias is ignored (C74).
* Decorator mode: `next_run_time=None` does not pause, `replace_existing` is ignored (with an id it always replaces), a template without scheduler
  always raises, decorating a bound method without id raises after the task was added (C75).
* Unmatched shutdown makes the reference count negative, a failed start leaves it counted (C30); `AsyncIOScheduler.shutdown` returns the opposite of its documentation.
* run_task does not hold the store lock (C39); a forced run stores its next time without waking the scheduler, a raising pass leaves the timer unset (C33).
* `MemoryStore.shutdown` drops all tasks (C40); a shutdown task with an explicit next run time is run by a pass (C40); a stopped scheduler still
  processes a queued wake-up (C57).
* max_instances can be exceeded across executors and by nested runs of DebugExecutor (C27); cancelled pool futures leak the count (C28); a BaseException loses all events of
  a call (C29); `self.pool.max_workers` does not exist.
* String listener masks raise TypeError in dispatch_event; descending sort puts tasks without next run first.
* A configured `mistrigger_grace_time=None` is dropped (C58); conflicting dotted keys lose values or raise, and setup mutates nested mappings of the caller (C43).

### Stores and locks
* FileStore truncates before it serialises (C06); a reader between `open("xb")` and the lock sees an empty file and deletes it. Redis never reports pre-1970 run times as due (C07).
* `LockProtected.protected` lacks try/finally; `acquire(False, timeout)` raises ValueError; `FileLockProtected.shutdown` removes the file: two holders (C44, C59).
* Crash or exception between send_task and the store update, or an update_task by another worker that read the task before the hand-over: double submission; a pause
  made through another worker is undone by a pass under way (C59). Braces in alias or lock_path break `.format`; without `{store}` all stores share a lock.
* A custom shape whose `name` differs from its registered name writes envelopes nobody can restore; FileStore deletes them (C63).

### Dashboard and remote control
* run_id collisions overwrite history records; the status is read and written without the lock (C49); `limit=0` returns one record (C50);
  filters are lower-cased, recorded values are not; audit id collisions break queries.
* Auth gate: "/rootlogin" counts as "/login" below mount "/root", websockets are not gated, a url_prefix below /static leaves the dashboard public (C46); `next` is an open
  redirect; `url_prefix="/"` fails an assertion; forwarded prefix "//evil" is kept (C48); capitalised security headers are duplicated; `user.extra` can override `is_admin` (C60).
* Remote: ids with "/" unreachable, explicit None dropped, `now` of previews ignored, trigger_args beside a trigger dropped (C65); other exceptions lose their type;
  an action on a task with unserialisable arguments takes effect but is reported as failed; RemoteTask.update_task is not atomic.
* Pages: beyond 10 000 pages "next" repeats the page; unknown state/sort gives 500; bulk loop aborted by other exceptions (C70); ids of repeated fields with commas are not
  stripped (C69); zero and negative intervals accepted, the latter make the pass run practically forever (C72); edit form accepts "nan"/"inf"; the difference shown misses changes between ==-equal values.
* CLI: two stores of one kind overwrite each other, free aliases refused (C52); "10\u017f" raises KeyError (C61).

### Event loops
* A failed start leaves the loop thread; shutdown does not stop it (C76). Restarted in another loop of the application, AsyncIOScheduler goes on using the first, possibly
  closed, loop. A nested start of an isolated NativeAsyncIOScheduler leaks a thread; its shutdown calls `stop()` from another thread, so that the join never returns once the
  loop waits for work (C76).
* In an isolated loop a shutdown coroutine is abandoned at its first suspension, and "successfully executed" is not logged (C77).

### Executors
* A pool executor that has been shut down refuses every run for ever, also after the scheduler was started again; so does one whose process has died, because the
  replacement reads `pool.max_workers`, which the standard pools lack (C78).
* `AsyncIOExecutor.shutdown(wait=True)` cancels the runs instead of waiting (C78); the thread of a synchronous function goes on regardless.
* The task logger writes `task_id` into the caller's own `extra` dictionary (handler.py:100-108): a dictionary reused for two tasks attributes the second task's message to the first (`Logs.C79_shared_witness`), and `extra=None`, which plain loggers accept, raises (`Logs.C79_extra_none_witness`).
* Installing the log handler again with a lower level does not lower the level of the logger, so the newly requested records are not captured (`Logs.C79_level_witness`).
* The log page of a run merges entries that agree in time, level, logger and message, and can thereby show fewer than `limit` entries although more exist (`Logs.C79_same_witness`).
* Once a dashboard listener has been installed for a scheduler, the scheduler is never garbage collected: the closure stored in the module-level table refers to it strongly, which defeats the weak reference stored beside it (`Install.C80_kept_witness`, events.py:193-197, history.py:345-359).
* Two dashboards created with run histories of their own: the history pages of both read the history given last (`Install.C80_pages_witness`), because the pages use the module-level storage.
* `ALL_TASKS_REMOVED` is recorded under the name `task.all_removed` with category `scheduler` (`Install.C80_category_witness`).
`shutdown(wait=True)` waits for the workers of the pools while it holds executor_lock and store_lock (base.py:282-284). A task function, or a listener called in the worker (the dashboard's own run-history listener calls `get_task`, contrib/dashboard/history.py:435-438), that needs the scheduler then waits for store_lock: deadlock (C82_shutdown_witness).
Executors call functions and listeners while holding their own lock (DebugExecutor; any pool whose future is already done when the callback is attached, executors/pool.py:49). `run_task` with a function or listener that uses the scheduler deadlocks with a pass that holds store_lock and submits to the same executor (C82_done_witness, C82_debug_witness).
Listeners of `add_task` run under store_lock; one that calls `get_scheduler_info`, `add_executor` or `remove_executor` deadlocks with a concurrent `shutdown`, even without waiting (C82_executors_witness).
With a lock path, `start` moves the first run of every waiting task to now + startup_delay if it is earlier; an interval task never returns to its grid, and a cron task runs once at a time that its fields do not match (C84_startup_delay_witness).
Every one-shot CLI command (`asyncz list`, `inspect`, `status`, `doctor`, …) starts a real scheduler: its first pass submits whatever is due to an executor that dies with the command and moves the task on; a due task whose executor is not "default" is deleted from the store, since the temporary scheduler has no other executor (base.py:1587-1596); stored shutdown tasks are run and deleted (C86).
`asyncz run` of a coroutine that suspends even once never finishes it: the command's loop makes one more round after submitting and is then closed; no command ever dispatches an executed or error event for what it submitted, and coroutines that were due when the command woke up are never entered although the task was moved on (C89).
`asyncz start --config jobs.yml` and `--module m` always fail if there is at least one job: loader.py calls `Task(func=…)`, but the constructor's parameter is `fn`, so `update_task` raises (C90).
`asyncz start --watch` reloads at every poll while a watched file is missing (utils.py:309-312) (C91); a bootstrap class without get_scheduler is instantiated twice (bootstrap_loader.py:68-92) (C92).
A task with an `OrTrigger` does not run at the union of the members' schedules: after the first run the members are asked with the combination's last run time as previous time, so of several date triggers only the earliest is ever run, of several interval triggers only the shortest interval counts, and a cron member's start_at is ignored (C93). An `AndTrigger` never answers after the first run unless the members' next times coincide: the scheduler's pass hangs (C16).
The messages fragment of the dashboard's task table is built without escaping (`_render_messages_oob`; the template it would prefer is not in the package): any markup given as `callable_path` of the creation form, or in an exception's text, becomes part of the page (C95).
Links of the task table do not quote ids: the button that removes the task 'b/../a' or '%61' removes the task 'a', buttons of ids like 'module:function' do not reach the server, the details of the task 'create' are not reachable; mounted at the root, details and edit links start with '//' and lead to the host 'tasks' (C96).
The login form forgets the page asked for after a failed attempt, drops its query string, and redirects to any address given as `next` (open redirect, C97).
`asyncz start --watch` starts the new scheduler before the old one is stopped, at every reload: `AsyncIOScheduler.shutdown` only posts to the event loop (C106).
Ctrl+C during `asyncz start --standalone` is raised in the event loop, not in the coroutine: neither `--on-stop` is called nor the scheduler stopped; a start hook that fails leaves the scheduler running, too. Coroutine functions registered with the shutdown trigger are never run by `asyncz start` (C106).
The thread that receives the log messages of a ProcessPoolExecutor ends at the first message that is garbled (several workers write messages larger than PIPE_BUF at the same time) or whose logging raises; then workers that log block for ever once the pipe is full. `shutdown(wait=False)` joins this thread and so waits for all worker processes; `remove_executor` of one that was not started raises AttributeError (C107).
`Shape.load` of a dumped dataclass or attrs object gives mappings for nested objects and fails for private attrs attributes and `init=False` fields; with `exclude_none` an attribute that was None comes back as its default; `MsgspecShape.dump` ignores `exclude_none` (C108). `ShapeField.default` of a field with a factory is the library's marker object (C109).
FileStore writes go through a buffered file object that is flushed when it is closed, after `with_lock` has given the lock back, and a reader unlinks what it cannot decode: any reader (for instance `asyncz list`) beside an add or update of another process can remove the task, and so can a lookup of an id that is being added (C110). One scheduler with its own lock is not affected (C05).
`update_task(id, store_alias=other)` changes the label of the task but does not move it: the task stays in the old store, and the runtime page counts it for the new one (C112, `runtime_relabel_witness`).
The overview and task pages look up the last run by task id alone: of two tasks with the same id in different stores both show the run of the one that ran last (C112, `home_shared_run_witness`).
The log, history and event pages strip the id typed into a filter, so a task whose id begins or ends with a blank cannot be filtered for (C111, `log_blank_witness`).
`typing.get_type_hints` fails on every subclass of `BaseSettings` (the annotation `dict[str, Any]` finds the method `dict`), so `safe_get_type_hints` returns only the class's own annotations: a subclass of `Settings` ignores DEBUG, VERSION and SECRET_KEY of the environment and its `dict()` lacks the inherited settings (C113, `hints_own`, `inherited_witness`).
If the environment has a variable SECRET_KEY, `Settings()` raises ValueError whatever its value: the annotation is the text `str | None`, which is not resolved and then called (C113, `secret_key_witness`).
The dashboard page of a task whose args or kwargs are not JSON-serialisable raises TypeError in `json.dumps` (HTTP 500), so the task can be neither inspected nor edited there (C114, `C114_found_partial`).
After a lifespan startup that failed because `start` raised, the next startup of any wrapped application is answered with `complete` though the scheduler is stopped: the failed start stays counted (C115, `C115_failed_witness`; cause: C30).
A program that adds its tasks at every start with replace_existing=True (the usual pattern with a persistent store) loses the runs missed while it was down: the stored next_run_time is overwritten by one computed from now (base.py:1447-1470; C117_replace_witness).
FileStore.update_task truncates in place: a process killed between truncate() and the flush at close leaves an empty file, which the next lookup or get_tasks deletes – the task is lost (stores/file.py:151-163, 80-84; C118_lost_witness). Every processing pass does this update for each due task.
An action of the control application on a task whose arguments have no JSON (an object in args or kwargs) is carried out, but answered with 400 and `PydanticSerializationError` (the dump of the snapshot is inside the `try`, remote.py:493-515); creating or updating such a task is carried out and answered with 500 (C119_done_witness).
`RemoteSchedulerClient` wraps only `URLError`: an answer that is not JSON (the page of a proxy, the worker's own 404, 405 and 500) raises `json.JSONDecodeError`, JSON that is not an object raises `AttributeError`, and a worker that does not answer within ten seconds raises `TimeoutError` although it may carry the call out, instead of `RemoteSchedulerError` (remote.py:618-650; C120_undocumented_witness, C120_lost_answer_witness).
`RemoteSchedulerClient("")` is accepted (only `None` is refused) and every call then fails an `assert` (remote.py:570-572, 612; C120_empty_url_witness).
The timeline (dashboard and CLI) previews each listed task by id without its store: of tasks with the same id in two stores all are shown with the run times of the first (C122_same_id_witness).
The timeline shows run times for paused tasks, which will not run until resumed (C122_paused_witness).
A task whose next run time is before 1970 is never run from a Redis store, while its time is reported as the next wakeup: process_tasks returns a wait of 0 forever (C123_redis_witness).
After update_task(task_id, store_alias="other") on a task of a memory store the scheduler reports its runs for the old store and the executor for "other": every run is in the run history twice, and one of the two records says "running" for ever (C124_relabelled_witness).
Comparing two `WeekdayPositionExpression`s (`1st mon`) always raises AttributeError: `__eq__` reads `other.option_num`, the attribute is `option_number` (C126_position_witness). `RangeExpression.__eq__` ignores the step: `0-10/2 == 0-10/5` (C126_step_witness). `BaseField.__eq__` ignores the name and tests `isinstance(self, self.__class__)` in place of `other` (C126_name_witness).
Two cron triggers with different schedules are described alike: the minutes `0-0/2` (once an hour) print as `0/2` (every second minute) (C127_zero_range_witness).
Shapes leak foreign errors: for a model type that is no class (`Optional[X]`) construct and load raise TypeError, for one without `__name__` AttributeError, PydanticShape.dump lets the error of its second attempt through, AttrsShape.dump the errors of attribute dumps, DataclassShape.fields the NameError of an unresolvable annotation (C128_*_witness).
With both --bootstrap and --store, list, status, preview, inspect, doctor, instances and timeline print a sentence to standard output before their --json document, so the output does not parse (C129_note_witness).
