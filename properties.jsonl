{"id": "C01", "title": "In-memory store behaves as a map keyed by task id", "statement": "After any sequence of add_task, update_task, delete_task, remove_all_tasks and shutdown calls on MemoryStore, lookup_task(id) returns exactly the task most recently stored under id (None if it was never stored, or was deleted since), get_all_tasks returns each stored task exactly once, and no two stored tasks share an id.", "quantifier": "every finite sequence of store operations, every task id and every next run time (including paused tasks)", "why_tests_cant": "a sorted list and an index dict are kept in sync through a hand-written binary search; a test visits a handful of insertion orders, the claim is about all of them", "anchors": ["asyncz/stores/memory.py:MemoryStore.add_task", "asyncz/stores/memory.py:MemoryStore.update_task", "asyncz/stores/memory.py:MemoryStore.delete_task", "asyncz/stores/memory.py:MemoryStore.get_task_index"]}
{"id": "C02", "title": "In-memory store returns exactly the due tasks, earliest first", "statement": "MemoryStore.get_due_tasks(now) returns exactly the stored tasks whose next run time is not None and <= now, each once, in ascending order of next run time with ties broken by id.", "quantifier": "every reachable store content and every now", "why_tests_cant": "depends on a sortedness invariant that has to survive every interleaving of inserts, re-timings and deletes", "anchors": ["asyncz/stores/memory.py:MemoryStore.get_due_tasks", "asyncz/stores/memory.py:MemoryStore.get_task_index"]}
{"id": "C03", "title": "In-memory store reports the earliest wake-up and lists paused tasks last", "statement": "MemoryStore.get_next_run_time() is the minimum next run time over the stored, unpaused tasks (None iff there are none), and get_all_tasks() is ordered by next run time with all paused tasks after all scheduled ones.", "quantifier": "every reachable store content", "why_tests_cant": "the minimum over an unbounded set of tasks reached by any history", "anchors": ["asyncz/stores/memory.py:MemoryStore.get_next_run_time", "asyncz/stores/memory.py:MemoryStore.get_all_tasks"]}
{"id": "C04", "title": "Store error contract: failing calls change nothing", "statement": "Adding an id that is stored raises ConflictIdError, deleting an id that is not stored raises TaskLookupError, and each such failing call leaves the contents of the store unchanged; a call that does not fail never raises either of them.", "quantifier": "every store state and every id, for the memory, file, Redis and SQL stores", "why_tests_cant": "tests check one conflict; the claim is that failure is exactly characterised and side-effect free in every state", "anchors": ["asyncz/stores/memory.py:MemoryStore", "asyncz/stores/file.py:FileStore", "asyncz/stores/redis.py:RedisStore", "asyncz/stores/sqlalchemy.py:SQLAlchemyStore"]}
{"id": "C05", "title": "File store behaves as the same map as the in-memory store", "statement": "For task ids it accepts and serialisable tasks, any crash-free sequence of FileStore calls returns what the abstract id->task map returns: lookups see the last write, due tasks are exactly those with next run time <= now in order, and the next run time is the minimum.", "quantifier": "every sequence of calls and every directory content made of files this store wrote", "why_tests_cant": "requires an argument over all histories that files and map stay in correspondence", "anchors": ["asyncz/stores/file.py:FileStore"]}
{"id": "C06", "title": "File store updates are all-or-nothing", "statement": "If FileStore.add_task or update_task is interrupted (process crash, serialisation error, full disk) at any point, a later lookup_task returns either the task as it was before or as it would be after, and a failed add leaves the id free.", "quantifier": "every crash or failure point inside the call and every prior content", "why_tests_cant": "crash points cannot be enumerated by a test runner that always completes the call", "anchors": ["asyncz/stores/file.py:FileStore.add_task", "asyncz/stores/file.py:FileStore.update_task", "asyncz/stores/file.py:FileStore.lookup_task"]}
{"id": "C07", "title": "Redis store refines the same map and due semantics", "statement": "For every sequence of calls RedisStore keeps the hash of task states and the sorted set of run times consistent, so that lookup, get_all_tasks, get_due_tasks(now) and get_next_run_time answer as the abstract id->task map does.", "quantifier": "every sequence of calls and every next run time", "why_tests_cant": "the two Redis keys are updated separately by each call; agreement is an invariant over histories, and boundary timestamps are not sampled by the tests", "anchors": ["asyncz/stores/redis.py:RedisStore"]}
{"id": "C08", "title": "SQL and MongoDB stores refine the same map and due semantics", "statement": "For every sequence of calls SQLAlchemyStore and MongoDBStore answer lookup, due, next-run and all-task queries as the abstract id->task map does, with paused tasks last.", "quantifier": "every sequence of calls and every next run time", "why_tests_cant": "cross-backend agreement for all histories", "anchors": ["asyncz/stores/sqlalchemy.py:SQLAlchemyStore", "asyncz/stores/mongo.py:MongoDBStore", "asyncz/stores/base.py:BaseStore.fix_paused_tasks"]}
{"id": "C09", "title": "File store ids cannot escape the store directory", "statement": "Every id FileStore accepts names a file directly inside the store directory with the configured suffix, and two different accepted ids name different files; ids containing a path separator or a parent reference are rejected with an error before any file is touched.", "quantifier": "every id string", "why_tests_cant": "path traversal is about all strings, not a sample", "anchors": ["asyncz/stores/file.py:FileStore.check_task_id", "asyncz/stores/file.py:FileStore.lookup_task"]}
{"id": "C10", "title": "Encrypted store payloads round-trip and reject foreign keys", "statement": "With an encryption key, what a store writes for a task is what it reads back for the same key, with no key payloads are written in the clear and read back, and a payload written under a different key is never accepted as a task.", "quantifier": "every payload, key and nonce", "why_tests_cant": "for-all over payloads and keys", "anchors": ["asyncz/stores/base.py:BaseStore.conditional_encrypt", "asyncz/stores/base.py:BaseStore.conditional_decrypt"]}
{"id": "C11", "title": "Interval trigger fires on the grid start + k*interval, at the first point not before now", "statement": "With no previous run and no jitter, IntervalTrigger.get_next_trigger_time returns start_at if start_at is in the future, otherwise the earliest start_at + k*interval (k a natural number) that is not before now.", "quantifier": "every start, now and positive interval", "why_tests_cant": "ceil arithmetic on arbitrary microsecond values; off-by-one only at exact grid points", "anchors": ["asyncz/triggers/interval.py:IntervalTrigger.get_next_trigger_time"]}
{"id": "C12", "title": "Consecutive interval runs are exactly one interval apart", "statement": "Feeding each returned time back as previous_time yields start, start+interval, start+2*interval, ... in real elapsed time, strictly increasing, until end_at.", "quantifier": "every positive interval, every number of steps, every time zone", "why_tests_cant": "an unbounded sequence of runs; DST transitions only matter at particular instants", "anchors": ["asyncz/triggers/interval.py:IntervalTrigger.get_next_trigger_time", "asyncz/utils.py:normalize"]}
{"id": "C13", "title": "No trigger fires after its end date", "statement": "No time returned by IntervalTrigger or CronTrigger is after end_at, with or without jitter, and once a trigger has returned None for some now it returns None for every later now.", "quantifier": "every trigger configuration, previous time, now and jitter sample", "why_tests_cant": "for-all over a random jitter draw and all instants", "anchors": ["asyncz/triggers/interval.py:IntervalTrigger.get_next_trigger_time", "asyncz/triggers/cron/trigger.py:CronTrigger.get_next_trigger_time"]}
{"id": "C14", "title": "Date trigger fires exactly once", "statement": "A DateTrigger yields run_at when it has not run and None afterwards, so that a task with a date trigger is run at most once and is removed after the run.", "quantifier": "every run_at, every sequence of process passes", "why_tests_cant": "at-most-once over all histories", "anchors": ["asyncz/triggers/date.py:DateTrigger.get_next_trigger_time", "asyncz/triggers/shutdown.py:ShutdownTrigger"]}
{"id": "C15", "title": "OrTrigger is the earliest of its members", "statement": "OrTrigger returns None iff all members return None, otherwise the minimum of the members' next times; it is returned by some member and no member's is earlier.", "quantifier": "every list of member triggers of any length and nesting", "why_tests_cant": "for-all over member lists", "anchors": ["asyncz/triggers/combination.py:OrTrigger.get_next_trigger_time"]}
{"id": "C16", "title": "AndTrigger returns only times on which every member agrees, and always answers", "statement": "If AndTrigger returns a time then every member returns that time; it returns None if some member has no further times; and it terminates whenever the members' schedules have a common future time or one of them ends.", "quantifier": "every list of member triggers", "why_tests_cant": "non-termination cannot be observed by a test that finishes", "anchors": ["asyncz/triggers/combination.py:AndTrigger.get_next_trigger_time"]}
{"id": "C17", "title": "Cron trigger only fires at matching times", "statement": "Every time CronTrigger.get_next_trigger_time returns (no jitter) has zero microseconds and its year, month, day, ISO week, weekday, hour, minute and second each satisfy the corresponding field expression.", "quantifier": "every combination of field expressions and every now/previous time", "why_tests_cant": "the field-increment/reset algorithm mixes derived fields with carried fields; correctness is for all expressions", "anchors": ["asyncz/triggers/cron/trigger.py:CronTrigger.get_next_trigger_time", "asyncz/triggers/cron/fields.py"]}
{"id": "C18", "title": "Cron trigger never skips a matching time", "statement": "No matching second lies between the instant the search starts from and the time returned; and None is returned only if there is no matching time up to the end date (or the end of the calendar).", "quantifier": "every combination of field expressions and every starting instant", "why_tests_cant": "skipped fire times are invisible to tests that check expected times of particular schedules", "anchors": ["asyncz/triggers/cron/trigger.py:CronTrigger.get_next_trigger_time", "asyncz/triggers/cron/trigger.py:CronTrigger.increment_field_value", "asyncz/triggers/cron/trigger.py:CronTrigger.set_field_value"]}
{"id": "C19", "title": "Cron trigger makes progress and terminates", "statement": "The search always terminates, and the time returned is strictly after previous_time.", "quantifier": "every trigger and every previous_time, now", "why_tests_cant": "termination and progress are for-all claims", "anchors": ["asyncz/triggers/cron/trigger.py:CronTrigger.get_next_trigger_time"]}
{"id": "C20", "title": "Cron field expressions select the documented values", "statement": "For each expression form (*, */n, a, a-b, a-b/n, lists, names, 'last', nth weekday), the next value computed from any start is the least value >= start that the documentation says the expression selects, or none.", "quantifier": "every expression, every date and every current value", "why_tests_cant": "all ranges, steps and months", "anchors": ["asyncz/triggers/cron/expressions.py", "asyncz/triggers/cron/fields.py:BaseField.get_next_value"]}
{"id": "C21", "title": "Cron expressions round-trip through their text", "statement": "Printing any parsed cron expression and parsing it again gives the same expression (so a persisted CronTrigger has the same schedule), and out-of-range or malformed expressions are rejected at construction.", "quantifier": "every expression string accepted or rejected", "why_tests_cant": "for-all over strings", "anchors": ["asyncz/triggers/cron/expressions.py", "asyncz/triggers/cron/trigger.py:CronTrigger.__getstate__"]}
{"id": "C22", "title": "Jitter stays within its bound", "statement": "With jitter j a returned time is at least the unjittered time and less than or equal to it plus j seconds (and never after end_at).", "quantifier": "every random draw, every trigger", "why_tests_cant": "random draws cannot be exhausted", "anchors": ["asyncz/triggers/base.py:BaseTrigger.apply_jitter"]}
{"id": "C23", "title": "A restored trigger has the same schedule", "statement": "Saving and restoring any trigger (__getstate__/__setstate__) gives a trigger with the same get_next_trigger_time on all arguments.", "quantifier": "every trigger and all arguments", "why_tests_cant": "tests compare a few attributes, not behaviour on all arguments", "anchors": ["asyncz/triggers/interval.py:IntervalTrigger.__getstate__", "asyncz/triggers/cron/trigger.py:CronTrigger.__getstate__", "asyncz/datastructures.py"]}
{"id": "C24", "title": "A task's due run times are exactly its schedule up to now", "statement": "Task.get_run_times(timezone, now) returns, in order and without repetition, exactly the trigger's successive times starting from next_run_time that are <= now, and the task's next time after them is > now.", "quantifier": "every trigger, every next_run_time and now", "why_tests_cant": "a loop over an arbitrary trigger", "anchors": ["asyncz/tasks/base.py:Task.get_run_times"]}
{"id": "C25", "title": "Task updates are validated and all-or-nothing", "statement": "Task.update_task either applies every given change or raises and leaves the task exactly as it was; it rejects id changes, non-positive max_instances or grace time, wrong types and unknown attributes.", "quantifier": "every combination of changes", "why_tests_cant": "exponentially many combinations of keys and values", "anchors": ["asyncz/tasks/base.py:Task.update_task"]}
{"id": "C26", "title": "A persisted task is restored with the same meaning", "statement": "Pickling/serialising a Task that can be serialised and restoring it yields a task with the same id, name, function reference, arguments, trigger, executor, coalesce, max_instances, misfire grace time and next run time.", "quantifier": "every task", "why_tests_cant": "for-all over task states", "anchors": ["asyncz/tasks/base.py:Task.__getstate__", "asyncz/tasks/base.py:Task.__setstate__"]}
{"id": "C27", "title": "At most max_instances concurrent runs of a task", "statement": "At any moment the number of submitted-and-unfinished runs of a task is at most its max_instances; a submission over the limit raises MaximumInstancesError and starts nothing.", "quantifier": "every interleaving of submissions and completions over any executors", "why_tests_cant": "interleavings", "anchors": ["asyncz/executors/base.py:BaseExecutor.send_task", "asyncz/executors/base.py:BaseExecutor.run_task_success", "asyncz/executors/base.py:BaseExecutor.run_task_error"]}
{"id": "C28", "title": "The running-instance count neither leaks nor goes negative", "statement": "When every submitted run of a task has finished (success or error) its instance count is 0, its entry is gone, and it can be submitted again.", "quantifier": "every interleaving of submissions and completions", "why_tests_cant": "leaks only show after particular histories", "anchors": ["asyncz/executors/base.py:BaseExecutor.run_task_success", "asyncz/executors/base.py:BaseExecutor.run_task_error", "asyncz/executors/debug.py:DebugExecutor"]}
{"id": "C29", "title": "Every scheduled run time produces exactly one outcome event", "statement": "Running a task for a list of run times yields exactly one event per run time, in order: MISSED iff a grace time is set and the delay exceeds it, otherwise EXECUTED with the return value or ERROR with the exception; the function is called exactly for the non-missed ones.", "quantifier": "every list of run times, grace time, clock readings and function behaviour", "why_tests_cant": "all clock readings and exceptions", "anchors": ["asyncz/executors/base.py:run_task", "asyncz/executors/base.py:run_coroutine_task"]}
{"id": "C30", "title": "Nested start/shutdown is reference counted", "statement": "start() starts the scheduler only on the outermost call, shutdown() stops it only on the matching outermost call, intermediate calls change nothing else, and unbalanced shutdown calls raise SchedulerNotRunningError without changing behaviour of later calls.", "quantifier": "every sequence of start and shutdown calls", "why_tests_cant": "histories of nested calls", "anchors": ["asyncz/schedulers/base.py:BaseScheduler.start", "asyncz/schedulers/base.py:BaseScheduler.shutdown", "asyncz/schedulers/base.py:BaseScheduler.inc_refcount", "asyncz/schedulers/base.py:BaseScheduler.decr_refcount"]}
{"id": "C31", "title": "Each processing pass submits every due task once with its due run times", "statement": "A pass at time now submits each task whose next run time <= now exactly once to its executor, with all its due run times (only the last if coalesce), then stores its next run time > now, or removes the task if it has none; tasks not due are untouched.", "quantifier": "every store content, trigger and now", "why_tests_cant": "for-all over stores of any size and any triggers", "anchors": ["asyncz/schedulers/base.py:BaseScheduler._process_tasks_of_store", "asyncz/schedulers/base.py:BaseScheduler.process_tasks", "asyncz/schedulers/base.py:BaseScheduler._coalesce_run_times"]}
{"id": "C32", "title": "No task runs early, and no scheduled time is run twice", "statement": "Over any history of processing passes with a non-decreasing clock, every submitted run time is <= the time of its pass, and for a given task the submitted run times are strictly increasing.", "quantifier": "every history of passes, clock values and triggers", "why_tests_cant": "at-most-once over unbounded histories", "anchors": ["asyncz/schedulers/base.py:BaseScheduler._process_tasks_of_store", "asyncz/tasks/base.py:Task.get_run_times"]}
{"id": "C33", "title": "The scheduler is always woken in time for the earliest task", "statement": "While the scheduler is running, after any API call either a wake-up is pending or the timer is set no later than the earliest next run time of any stored task.", "quantifier": "every sequence of API calls, passes and stores", "why_tests_cant": "missed wake-ups depend on the history of calls", "anchors": ["asyncz/schedulers/base.py:BaseScheduler.process_tasks", "asyncz/schedulers/base.py:BaseScheduler.real_add_task", "asyncz/schedulers/base.py:BaseScheduler.run_task", "asyncz/schedulers/asyncio.py:AsyncIOScheduler.wakeup"]}
{"id": "C34", "title": "Tasks added before start are all scheduled at start", "statement": "Tasks added while stopped are kept, in order, and after start() each one is in its store with its first run time (or the explicit one given), nothing is lost or duplicated, and changes made to them before start are kept.", "quantifier": "every sequence of pre-start calls", "why_tests_cant": "histories of pre-start calls", "anchors": ["asyncz/schedulers/base.py:BaseScheduler.add_task", "asyncz/schedulers/base.py:BaseScheduler.start", "asyncz/schedulers/base.py:BaseScheduler.real_add_task"]}
{"id": "C35", "title": "Event listeners see exactly the events they subscribed to, in order", "statement": "Each dispatched event is delivered exactly once to each registered listener whose mask includes its code, in registration order, a raising listener does not prevent the others, and after remove_listener the callback gets no events (unless registered more than once).", "quantifier": "every list of listeners, masks and events, including failing listeners", "why_tests_cant": "all masks and orders", "anchors": ["asyncz/schedulers/base.py:BaseScheduler.add_listener", "asyncz/schedulers/base.py:BaseScheduler.remove_listener", "asyncz/schedulers/base.py:BaseScheduler.dispatch_event"]}
{"id": "C36", "title": "Pausing stops and resuming restarts a task", "statement": "After pause_task(id) no pass submits the task until it is resumed, updated or run explicitly; resume_task gives it the trigger's next time from now, or removes it if the trigger is finished.", "quantifier": "every task, trigger and history in between", "why_tests_cant": "no-run-while-paused is over all passes", "anchors": ["asyncz/schedulers/base.py:BaseScheduler.pause_task", "asyncz/schedulers/base.py:BaseScheduler.resume_task"]}
{"id": "C37", "title": "Store and executor aliases are unique and stable", "statement": "Adding an executor or store under an alias in use raises ValueError and changes nothing; removing an unknown alias raises KeyError and changes nothing; a lookup by alias returns the one added under it.", "quantifier": "every sequence of add/remove calls", "why_tests_cant": "histories", "anchors": ["asyncz/schedulers/base.py:BaseScheduler.add_executor", "asyncz/schedulers/base.py:BaseScheduler.add_store", "asyncz/schedulers/base.py:BaseScheduler.remove_executor", "asyncz/schedulers/base.py:BaseScheduler.remove_store", "asyncz/schedulers/base.py:BaseScheduler.lookup_store"]}
{"id": "C38", "title": "Operations reach a task wherever it is", "statement": "lookup, update, pause, resume, reschedule and delete by id act on the task with that id in the pending list (stopped) or in the given store or the first store that has it (running), act on no other task, and raise TaskLookupError iff there is none; remove_all_tasks removes exactly the tasks of the given store, or of all.", "quantifier": "every scheduler state and id", "why_tests_cant": "all stores and pending combinations", "anchors": ["asyncz/schedulers/base.py:BaseScheduler.lookup_task", "asyncz/schedulers/base.py:BaseScheduler.delete_task", "asyncz/schedulers/base.py:BaseScheduler.update_task"]}
{"id": "C39", "title": "Explicit run_task submits once and reschedules correctly", "statement": "run_task submits the task exactly once; with force the run time is now; afterwards its next run time is strictly after now, or, if the trigger is finished and remove_finished is set, the task is removed; if max instances is reached nothing is submitted and the schedule is unchanged.", "quantifier": "every task state and trigger", "why_tests_cant": "all trigger results and executor states", "anchors": ["asyncz/schedulers/base.py:BaseScheduler.run_task"]}
{"id": "C40", "title": "Shutdown tasks run exactly once, at shutdown", "statement": "Tasks with the shutdown trigger are never run by a processing pass, are each submitted exactly once during shutdown and are then removed; all other tasks stay in their stores.", "quantifier": "every set of tasks over every set of stores", "why_tests_cant": "all mixes of triggers", "anchors": ["asyncz/schedulers/base.py:BaseScheduler.shutdown", "asyncz/triggers/shutdown.py:ShutdownTrigger"]}
{"id": "C41", "title": "A preview shows the runs that will happen", "statement": "preview_task_runs(id, count) returns the first min(count, available) future run times, equal to what successive passes would schedule, and changes nothing; counts outside 1..50 are rejected.", "quantifier": "every task, trigger and count", "why_tests_cant": "for-all over triggers and counts", "anchors": ["asyncz/schedulers/base.py:BaseScheduler.preview_task_runs"]}
{"id": "C42", "title": "Task listing filters and sorts correctly", "statement": "get_tasks lists every pending task (stopped) or every stored task of the admitted stores (otherwise). get_task_infos returns exactly those that satisfy all given filters, each once, sorted by the requested field and direction, stably; upwards by next run time, tasks without one come last (descending reverses the whole order). An unknown state or sort field raises ValueError.", "quantifier": "every task set, filter and sort combination", "why_tests_cant": "combinatorial filters", "anchors": ["asyncz/schedulers/base.py:BaseScheduler.get_task_infos", "asyncz/tasks/inspection.py"]}
{"id": "C43", "title": "Configuration keys are parsed without loss or interference", "statement": "setup(global_config, prefix) keeps exactly the prefixed keys, dotted keys become nested mappings from which each leaf can be read back, and setup raises if the scheduler is running.", "quantifier": "every flat configuration", "why_tests_cant": "all key sets", "anchors": ["asyncz/schedulers/base.py:BaseScheduler.setup"]}
{"id": "C44", "title": "Scheduler locks give mutual exclusion and are released", "statement": "At most one holder (process or thread) is inside the protected section of a lock with a given name at any time, and the lock is released when the section is left, also by an exception.", "quantifier": "every interleaving of acquire, release, exception and shutdown", "why_tests_cant": "interleavings", "anchors": ["asyncz/locks.py:LockProtected", "asyncz/locks.py:RLockProtected", "asyncz/locks.py:FileLockProtected", "asyncz/file_locking.py"]}
{"id": "C45", "title": "Callable/argument validation predicts whether the call binds", "statement": "If add_task accepts (fn, args, kwargs) then calling fn(*args, **kwargs) does not fail with an argument-binding TypeError; if it rejects them, the call would.", "quantifier": "every signature and every argument list", "why_tests_cant": "all signatures", "anchors": ["asyncz/utils.py:check_callable_args"]}
{"id": "C46", "title": "Dashboard pages are unreachable without authentication", "statement": "AuthGateMiddleware forwards an HTTP request to the application only if its path is allow-listed or the backend authenticated a user; all other HTTP requests get the login redirect or 401/HX response.", "quantifier": "every request path, header set and allow-list", "why_tests_cant": "for-all over paths", "anchors": ["asyncz/contrib/dashboard/admin/middleware/auth_gate.py"]}
{"id": "C47", "title": "Security headers are always present and never overwrite the app's own", "statement": "Every HTTP response start leaving the middleware carries each configured security header exactly as the application set it, or else with the configured value; no other header is changed.", "quantifier": "every response header list", "why_tests_cant": "for-all over header lists", "anchors": ["asyncz/contrib/dashboard/admin/middleware/security_headers.py"]}
{"id": "C48", "title": "Forwarded root path is honoured only from trusted sources", "statement": "The root path of a request is taken from forwarding headers only when trusted; otherwise the request scope is unchanged; a normalised prefix always starts with one slash and does not end in one.", "quantifier": "every header list and scope", "why_tests_cant": "for-all over headers", "anchors": ["asyncz/contrib/dashboard/admin/middleware/forward_root_path.py"]}
{"id": "C49", "title": "Run history is bounded, keyed by run and never regresses", "statement": "The run history store holds at most maxlen runs, the newest ones, one record per run (task, store, run time); a terminal status is never replaced by 'submitted', what is known of the task (name, callable, executor, scheduler) is kept, the result is that of the last execution report, and lookups by id agree with the listing.", "quantifier": "every sequence of events", "why_tests_cant": "histories with eviction", "anchors": ["asyncz/contrib/dashboard/history.py"]}
{"id": "C50", "title": "Event, audit and log buffers keep the newest entries in order", "statement": "Each in-memory dashboard buffer keeps exactly the newest maxlen entries appended, and a query returns the matching ones newest first, at most limit of them.", "quantifier": "every sequence of appends and every query", "why_tests_cant": "histories with eviction", "anchors": ["asyncz/contrib/dashboard/events.py", "asyncz/contrib/dashboard/audit.py", "asyncz/contrib/dashboard/logs/storage.py"]}
{"id": "C51", "title": "Date strings are parsed to the instant they denote", "statement": "to_datetime on a string YYYY-MM-DD[ hh:mm:ss[.fraction]][zone] gives that date, time, fraction of a second and zone; anything else is rejected.", "quantifier": "every string", "why_tests_cant": "all strings, all fraction lengths", "anchors": ["asyncz/utils.py:to_datetime"]}
{"id": "C52", "title": "CLI store options parse to the alias and settings given", "statement": "parse_store_option maps each alias=value form to the alias and value written, splitting at the first '=', and rejects malformed options.", "quantifier": "every option string", "why_tests_cant": "all strings", "anchors": ["asyncz/cli/_parsers.py"]}
{"id": "C53", "title": "Shape registry never silently replaces a shape", "statement": "Registering a name twice without replace fails and keeps the first; with replace the newest is returned by get; available() is the sorted list of registered names.", "quantifier": "every sequence of registrations", "why_tests_cant": "histories", "anchors": ["asyncz/shapes/registry.py"]}
{"id": "C54", "title": "Durations and rounding helpers are exact", "statement": "timedelta_seconds and datetime_ceil are exact: ceil returns the least whole second not before the argument and is idempotent; normalising a datetime preserves the instant it denotes.", "quantifier": "every datetime and timedelta", "why_tests_cant": "all microsecond values and zones", "anchors": ["asyncz/utils.py:datetime_ceil", "asyncz/utils.py:timedelta_seconds", "asyncz/utils.py:normalize"]}
{"id": "C55", "title": "An interval trigger without start date first fires one interval after it is created", "statement": "IntervalTrigger(seconds=n) without start_at, created at instant u, first fires at u + n seconds, whatever the time zones of the system, the trigger and the scheduler.", "quantifier": "every creation instant, interval and choice of system, trigger and scheduler zone", "why_tests_cant": "depends on all combinations of zone offsets; tests run with one system zone", "anchors": ["asyncz/triggers/interval.py:IntervalTrigger.__init__", "asyncz/triggers/interval.py:IntervalTrigger.get_next_trigger_time"]}
{"id": "C57", "title": "A stopped scheduler submits nothing", "statement": "After the shutdown that stops the scheduler no task is handed to an executor, whatever is called and however late queued wake-ups and timers are run, until start is called again.", "quantifier": "every history of calls, wake-ups and timer events after the shutdown", "why_tests_cant": "depends on the order in which the event loop runs queued callbacks", "anchors": ["asyncz/schedulers/asyncio.py:AsyncIOScheduler._shutdown", "asyncz/schedulers/asyncio.py:AsyncIOScheduler.wakeup", "asyncz/schedulers/base.py:BaseScheduler.process_tasks"]}
{"id": "C56", "title": "from_crontab schedules the five crontab fields", "statement": "CronTrigger.from_crontab(expr) accepts exactly expressions of five blank-separated valid field expressions and yields the trigger whose minute, hour, day, month and weekday are those given, at second 0 of every week and year; fields omitted in a CronTrigger default to their minimum ('*' for week and weekday) below the least significant given one and to '*' elsewhere.", "quantifier": "every crontab string and every set of given fields", "why_tests_cant": "all strings and all subsets of fields", "anchors": ["asyncz/triggers/cron/trigger.py:CronTrigger.from_crontab", "asyncz/triggers/cron/trigger.py:CronTrigger.__init__"]}
{"id": "C58", "title": "Task defaults apply exactly where an argument is omitted", "statement": "An option (coalesce, max_instances, mistrigger_grace_time) of a task added from a callable is the argument given, else the configured task default; a trigger that allows mistriggering makes the omitted grace time unlimited.", "quantifier": "every set of given arguments, every configured defaults", "why_tests_cant": "all combinations of given and omitted options", "anchors": ["asyncz/schedulers/base.py:BaseScheduler.add_task", "asyncz/schedulers/datastructures.py:TaskDefaultStruct"]}
{"id": "C59", "title": "Workers sharing a store submit each run time at most once", "statement": "When several worker processes run schedulers over the same persistent store with the same lock_path, every run time of a task is handed to an executor by at most one worker, and a task's run times are handed over in increasing order across all workers.", "quantifier": "every number of workers and tasks, every interleaving of their store passes, every set of due tasks and clock readings", "why_tests_cant": "the failure needs particular interleavings of several processes around the lock file", "anchors": ["schedulers/base.py:_process_tasks_of_store", "locks.py:FileLockProtected", "stores/base.py:BaseStore.create_lock"]}
{"id": "C60", "title": "The signed-in dashboard user is the one of the last successful login", "statement": "After any sequence of sign-in requests of a browser session the authentication gate sees exactly the user returned by the credential check of the last successful login since the last logout, and nobody if there is none; failed logins and form views change nothing.", "quantifier": "every sequence of form views, login attempts and logouts; every credential check", "why_tests_cant": "for-all over request histories", "anchors": ["asyncz/contrib/dashboard/admin/backends.py", "asyncz/contrib/dashboard/admin/middleware/auth_gate.py"]}
{"id": "C61", "title": "Command-line executors, intervals and triggers mean what is written", "statement": "--executor 'alias=type[:workers]' yields exactly that executor; a repeated alias takes the last option; --interval accepts exactly digits followed by an optional unit s/m/h in either case and means that many seconds, minutes or hours; exactly one of --cron, --interval, --at selects the trigger, and none or several are refused.", "quantifier": "every option string and list of options", "why_tests_cant": "all strings", "anchors": ["asyncz/cli/utils.py:parse_executor_option", "asyncz/cli/utils.py:parse_trigger_option", "asyncz/cli/types.py"]}
{"id": "C62", "title": "asyncz update shows exactly what changes and changes nothing unless applied", "statement": "The update command reports exactly the attributes whose values the requested update would change, with their old and new values; without confirmation the stored task is left as it was, and with it exactly the requested attributes are changed.", "quantifier": "every task, set of requested options and confirmation", "why_tests_cant": "all combinations of options and previous values", "anchors": ["asyncz/cli/commands/update.py", "asyncz/tasks/base.py:Task.update_task"]}
{"id": "C63", "title": "A stored task state is restored under the shape it was saved with", "statement": "Whatever shape a scheduler is configured with, a task state its stores write is restored unchanged by a store of the same process; a stored record is accepted only if it is an old-style state or a version 1 task-state envelope naming a registered shape.", "quantifier": "every history of registrations, every shape selection, task state and stored record", "why_tests_cant": "depends on registration histories and on custom shape classes", "anchors": ["asyncz/stores/base.py:BaseStore.serialize_task_state", "asyncz/stores/base.py:BaseStore.deserialize_task_state", "asyncz/shapes/registry.py"]}
{"id": "C64", "title": "Dumping a value keeps its data and structure", "statement": "Shape.dump of a value built of dataclasses, attrs objects, mappings and sequences is built of mappings, tuples and lists only and has at every path the same data; with exclude_none exactly the fields and entries that are None are missing, at every depth.", "quantifier": "every nested value and path", "why_tests_cant": "all nestings and depths", "anchors": ["asyncz/shapes/base.py:dump_plain"]}
{"id": "C65", "title": "A remote scheduler call does what the direct call does", "statement": "Every method of the remote scheduler client has the effect on the worker's scheduler of the same call made directly there, and returns its result or raises its error, up to what JSON does to the values (tuples arrive as lists, datetimes and enum members as texts); whatever the text of task ids, filters and stores.", "quantifier": "every call, argument, scheduler behaviour and scheduler state", "why_tests_cant": "all ids and texts (quoting), all values crossing the boundary, all errors", "anchors": ["asyncz/contrib/dashboard/remote.py"]}
{"id": "C66", "title": "The control application obeys only clients with its token", "statement": "If the control application has a token, a request that does not carry it leaves the scheduler untouched and gets an answer that does not depend on the scheduler; with the token requests are served as without protection.", "quantifier": "every request (method, path, body, token), scheduler and state", "why_tests_cant": "all requests and endpoints", "anchors": ["asyncz/contrib/dashboard/remote.py:_require_token"]}
{"id": "C67", "title": "A remote task proxy shows the task and its edits", "statement": "A proxy made from a snapshot shows that snapshot, and so do its copies; an edit is accepted exactly if all its keys are editable and all its values valid, and then exactly the attributes asked for have changed.", "quantifier": "every snapshot and every mapping of updates", "why_tests_cant": "all combinations of keys and values", "anchors": ["asyncz/contrib/dashboard/remote.py:RemoteTask"]}
{"id": "C68", "title": "Dashboard pagination shows every matching task exactly once", "statement": "Every request for the task list shows a block of the filtered list: the page asked for, or the last if it does not exist; next/previous are offered exactly if rows follow/precede, their links keep filters, sorting and page size and lead to the following/preceding block, so going through the pages shows every task once and in order.", "quantifier": "every list of tasks, every query text and page size, up to 10 000 pages", "why_tests_cant": "all lists, filters, page sizes and texts in the links (quoting)", "anchors": ["asyncz/contrib/dashboard/controllers/_helpers.py:parse_task_filters", "asyncz/contrib/dashboard/controllers/_helpers.py:_build_task_query_suffix", "asyncz/contrib/dashboard/controllers/_helpers.py:_paginate_task_infos", "asyncz/contrib/dashboard/controllers/_helpers.py:build_task_dashboard_context"]}
{"id": "C69", "title": "A bulk selection is understood in each of its forms", "statement": "The ids of a bulk request - comma-separated text, JSON list, or repeated fields - are read as exactly the distinct ids given, in the order of their first appearance.", "quantifier": "every list of ids and every form of the payload", "why_tests_cant": "all ids, blanks, repetitions and encodings", "anchors": ["asyncz/contrib/dashboard/controllers/_helpers.py:parse_ids_from_request_form"]}
{"id": "C70", "title": "A bulk action reaches every selected task once and is audited", "statement": "A bulk run/pause/resume/remove calls the scheduler once for each selected task in order, a missing task does not stop the others, and the audit log gets one entry per task with its outcome.", "quantifier": "every selection, scheduler behaviour and state", "why_tests_cant": "all mixtures of outcomes among the selected tasks", "anchors": ["asyncz/contrib/dashboard/controllers/tasks.py:TaskBulkRemoveController", "asyncz/contrib/dashboard/controllers/tasks.py:_audit_task_action"]}
{"id": "C71", "title": "The task editing form changes exactly what it announces", "statement": "A form with an invalid field, a form whose values the scheduler does not accept, a preview and a form without differences change nothing; an error names exactly the invalid fields. The form is applied exactly if that is asked for, all is valid and accepted and something differs; then the task has exactly the attributes asked for and the others as before. The differences shown are exactly those that applying makes. Failed attempts and applied changes are audited once, previews are not. A form sent back as it was shown makes no difference.", "quantifier": "every task, every form (all texts, blanks, capitals), every intent", "why_tests_cant": "all texts in all combinations of fields", "anchors": ["asyncz/contrib/dashboard/controllers/tasks.py:TaskEditController", "asyncz/contrib/dashboard/controllers/tasks.py:_parse_task_edit_updates", "asyncz/tasks/base.py:Task.update_task"]}
{"id": "C72", "title": "The creation form makes the trigger that was typed", "statement": "A number with s/m/h or alone is an interval of that length and nothing else is one; a cron text gives the trigger CronTrigger.from_crontab gives; a date whose plus sign was decoded as a blank is the date with the plus sign; an accepted trigger has a positive interval.", "quantifier": "every text, with any blanks around it", "why_tests_cant": "all texts", "anchors": ["asyncz/contrib/dashboard/controllers/_helpers.py:parse_trigger_config", "asyncz/contrib/dashboard/controllers/_helpers.py:parse_trigger"]}
{"id": "C73", "title": "The timeline shows the earliest upcoming runs", "statement": "The rows of the timeline are runs of the tasks' previews in order of time, ties in task order; a run left out because of the limit is not earlier than one that is shown; the run announced as next is the earliest of all; whatever the request, the limits stay within their bounds.", "quantifier": "every list of tasks and previews, every limit and query text", "why_tests_cant": "all interleavings of run times of all tasks", "anchors": ["asyncz/contrib/dashboard/controllers/timeline.py:build_timeline_context", "asyncz/contrib/dashboard/controllers/history.py:_limit"]}
{"id": "C74", "title": "A plugin alias makes an instance of the class it points to", "statement": "Creating a trigger, store or executor from an alias gives an instance of the class the alias points to, of the right kind and made with exactly the given arguments, whatever was created before; an unknown alias is a LookupError, a malformed target an ImportError, a class of another kind a TypeError. A trigger instance is used as it is, no trigger means a date trigger, and the scheduler's timezone is added exactly if none is given. A taken executor or store alias and a failed creation leave the table unchanged.", "quantifier": "every registry, history of creations and registrations, alias and arguments", "why_tests_cant": "all histories of uses: the class is cached between calls", "anchors": ["asyncz/schedulers/base.py:BaseScheduler.create_plugin_instance", "asyncz/schedulers/base.py:BaseScheduler.create_trigger", "asyncz/schedulers/base.py:BaseScheduler.resolve_load_plugin", "asyncz/schedulers/base.py:BaseScheduler.add_executor", "asyncz/schedulers/base.py:BaseScheduler.add_store", "asyncz/schedulers/defaults.py"]}
{"id": "C75", "title": "Decorating a function is the same as adding it", "statement": "add_task(trigger, ...) used as a decorator hands the scheduler the same task as add_task(fn, trigger, ...): the options given, else the configured defaults, and a new id if none is given; it is accepted exactly if the options are valid and fit the function. One template can decorate several functions, each of which becomes a task of its own; without id the function remembers its tasks.", "quantifier": "every set of options, defaults, function and id", "why_tests_cant": "all combinations of options with defaults, valid or not", "anchors": ["asyncz/tasks/base.py:Task.__call__", "asyncz/tasks/base.py:Task.__init__", "asyncz/schedulers/base.py:BaseScheduler.add_task"]}
{"id": "C76", "title": "A scheduler has at most one event loop thread, and none when it is stopped", "statement": "An AsyncIOScheduler never has more than one thread with an event loop of its own, and the loop it uses is that one; when it is stopped it has none; while it is running it has a loop; started inside a loop it uses that loop and makes no thread. The same for NativeAsyncIOScheduler.", "quantifier": "every history of starts (failed ones included) and shutdowns, from inside or outside a loop, the posted part of shutdown being run at any later time", "why_tests_cant": "all histories and all delays of the posted shutdown", "anchors": ["asyncz/schedulers/asyncio.py:AsyncIOScheduler", "asyncz/schedulers/asyncio.py:NativeAsyncIOScheduler", "asyncz/schedulers/utils.py:run_in_event_loop"]}
{"id": "C77", "title": "A coroutine with the shutdown trigger is run to its end", "statement": "At shutdown every task with the shutdown trigger whose function is a coroutine function is run, exactly as often as it is registered, until it ends.", "quantifier": "every list of such tasks, each with any number of suspensions, whatever else the loop has to do", "why_tests_cant": "all lengths of coroutines and all contents of the loop's queue", "anchors": ["asyncz/schedulers/base.py:BaseScheduler.handle_shutdown_coros", "asyncz/schedulers/asyncio.py:AsyncIOScheduler._init_new_loop", "asyncz/schedulers/asyncio.py:AsyncIOScheduler._shutdown"]}
{"id": "C78", "title": "An executor carries out each accepted run once", "statement": "Every run an executor accepts is begun at most once, in the order of submission, and is in the end either reported or cancelled; runs are cancelled only by a shutdown; a shutdown that waits returns only when all runs have ended; an executor accepts runs again after the scheduler has been restarted.", "quantifier": "every history of starts, submissions, shutdowns, deaths of processes and every schedule of the workers", "why_tests_cant": "all interleavings of workers, submissions and shutdowns", "anchors": ["asyncz/executors/asyncio.py:AsyncIOExecutor", "asyncz/executors/pool.py:BasePoolExecutor", "asyncz/executors/process_pool.py:ProcessPoolExecutor"]}
{"id": "C79", "title": "A message logged with a task's logger is stored under that task, and the log page of a run shows the run's messages", "statement": "A message logged through the logger of a task (get_task_logger) carries that task's identifier unless the call names another one, and the installed log handler stores it as the newest entry, under that task, with its time, level, logger name and message, so that the log page of the task finds it. After the handler is installed every record of at least the requested level is captured. The log page of a run shows at most `limit` entries, each of them carrying the run's identifier or belonging to the run's task and made within five seconds of the run, none twice, and it omits one of them only when the page is full.", "quantifier": "every history of log calls over every set of tasks and dictionaries of extra data, every sequence of handler installations and levels, every buffer of entries, run, time and limit", "why_tests_cant": "Attribution depends on dictionaries shared between calls and the page on all entries in the buffer; tests log one message with a fresh dictionary.", "anchors": ["asyncz/contrib/dashboard/logs/handler.py:_extract_task_id", "asyncz/contrib/dashboard/logs/handler.py:TaskLogHandler.emit", "asyncz/contrib/dashboard/logs/handler.py:TaskLoggerAdapter.process", "asyncz/contrib/dashboard/logs/handler.py:install_task_log_handler", "asyncz/contrib/dashboard/history.py:logs_for_run"]}
{"id": "C80", "title": "The dashboard records each event of each scheduler exactly once, in the storage last installed for it", "statement": "After any history of creating, forgetting and destroying schedulers, installing the dashboard's event and run-history listeners (any number of times, with or without a storage), and registering and removing other listeners, each event dispatched by a scheduler is recorded exactly once by each installed dashboard listener interested in it, in order, in the storage of the last installation for that scheduler; the user's listeners are unaffected; the dashboard keeps no scheduler alive; and the dashboard's pages read the storage in which the scheduler's events are recorded. The event record carries the event's code, a name unique to its kind, its task, store and scheduler, its category and bounded texts of results.", "quantifier": "every history of scheduler creation, destruction, address reuse, installation, registration and events; every event", "why_tests_cant": "Duplicates and omissions depend on repeated installation, on addresses reused after destruction and on the interleaving of several schedulers; tests install once on one scheduler.", "anchors": ["asyncz/contrib/dashboard/events.py:install_scheduler_event_listener", "asyncz/contrib/dashboard/events.py:get_scheduler_event_storage", "asyncz/contrib/dashboard/events.py:_event_record", "asyncz/contrib/dashboard/history.py:install_run_history_listener", "asyncz/contrib/dashboard/history.py:get_run_history_storage", "asyncz/contrib/dashboard/application.py:create_dashboard_app"]}
{"id": "C81", "title": "Concurrent calls never deadlock when callbacks keep to themselves", "statement": "Whatever calls of the scheduler any number of threads make (start, shutdown with or without waiting, adding and removing executors, stores, listeners and tasks, updating, pausing, resuming, running and reading tasks, scheduler passes, completion callbacks), in any interleaving, with executors of any kind and calls that may raise at any point: if listeners and task functions do not call the scheduler themselves, no execution ever reaches a state in which some threads wait for each other; as long as a call has not ended, some thread can go on, and a thread that has made its calls holds no lock.", "quantifier": "all numbers of threads, all programs of calls, all interleavings, all exceptions", "why_tests_cant": "a deadlock needs one particular interleaving of several threads; the absence of all of them is a statement about every schedule", "anchors": ["asyncz/schedulers/base.py: executor_lock, store_lock, listeners_lock, ref_lock, start, shutdown, process_tasks", "asyncz/executors/base.py: BaseExecutor.send_task, run_task_success", "asyncz/stores/file.py: FileStore"]}
{"id": "C82", "title": "Listeners and task functions may call the scheduler without deadlock", "statement": "A listener, a task function run by an executor, or a function with the shutdown trigger may call the scheduler (to any depth, from any thread, while other threads call it too) without any threads coming to wait for each other.", "quantifier": "all numbers of threads, all programs of calls, all interleavings, all nestings of callbacks", "why_tests_cant": "a deadlock needs one particular interleaving of several threads and callbacks", "anchors": ["asyncz/schedulers/base.py: dispatch_event, shutdown, run_task, process_tasks", "asyncz/executors/base.py: BaseExecutor.send_task", "asyncz/executors/debug.py: DebugExecutor", "asyncz/executors/pool.py: BasePoolExecutor", "asyncz/contrib/dashboard/history.py: install_run_history"]}
{"id": "C83", "title": "No scheduled run is lost or made twice", "statement": "For a task whose trigger's answer depends only on the previous run time and goes forward (the built-in interval, date and cron triggers in zones of constant offset without jitter are such), over any history of processing passes at which the scheduler was running and the task could be served (locks free, store readable, its executor present and accepting), with anything in between that leaves the task alone: the run times the passes dealt with are exactly the trigger's successive times from the task's first next run time up to the latest pass, without gap or repetition, however late or irregular the passes were. Each pass that found some reports them once (submitted, or max-instances), what was submitted was handed to the executor (the last of them if the task coalesces, else all), and afterwards the task's next run time is the first one later than every pass, or the task is gone because the trigger has ended. For an interval trigger these are r, r+interval, ... up to the latest pass and the end date; for a cron trigger, r and all matching times of the calendar.", "quantifier": "every lawful store, every scheduler state, every history of passes at arbitrary times and arbitrary other activity in between, every regular trigger; all intervals / cron expressions in constant-offset zones", "why_tests_cant": "the history of passes is unbounded and their times arbitrary; a test sees a few passes at a few times", "anchors": ["asyncz/schedulers/base.py: process_tasks, _process_tasks_of_store", "asyncz/tasks/base.py: get_run_times", "asyncz/triggers/interval.py: get_next_trigger_time", "asyncz/triggers/cron/trigger.py: get_next_trigger_time"]}
{"id": "C84", "title": "A scheduled task runs at exactly the times its trigger describes", "statement": "A task is scheduled, without explicit next run time, at a time t0: it is added to a started scheduler, or added (among other tasks with different names) to a stopped scheduler without lock path that is started at t0. After any history of passes at which it could be served and whose latest pass was at T, with anything in between that leaves it alone, the run times reported for it (and, unless the instance limit was met, handed to the executor) are, each once and in increasing order: for an interval trigger without jitter, exactly the points start + k*interval with t0 <= point <= T and not after the end date; for a cron trigger without jitter, exactly the matching times of the calendar not before t0 and start, up to T and the end date (both in zones of constant offset, task not coalescing); for a date trigger (any zone, coalescing or not), the run date if it is not after T, and the task is gone exactly then.", "quantifier": "every lawful store, state, set of other tasks, trigger parameters, scheduling time, and every history of passes at arbitrary times", "why_tests_cant": "ranges over all trigger parameters and all histories; a test observes a few runs", "anchors": ["asyncz/schedulers/base.py: add_task, real_add_task, start, process_tasks", "asyncz/tasks/base.py: get_run_times", "asyncz/triggers/interval.py", "asyncz/triggers/cron/trigger.py", "asyncz/triggers/date.py"]}
{"id": "C85", "title": "A due run is submitted within the latency of the event loop", "statement": "Let a scheduler be running at time b after any history of calls and passes that did not raise and without forced manual runs, with a stored task whose next run time is r, on an event loop that makes a pass no later than l after a wake-up is queued or the timer has expired. As long as the scheduler stays running and the task is left alone, whatever other calls and passes come in between, the loop is bound to make a pass no later than max(r, b+d)+l, where d is 0, or the retry interval if some earlier pass met a taken lock or a failing store; and the first pass at or after r reports r, together with all later due times, and hands them to the executor.", "quantifier": "every history, every interleaving of other calls and early passes, every latency, every trigger", "why_tests_cant": "an upper bound on lateness over all schedules of calls, passes and timer expirations", "anchors": ["asyncz/schedulers/base.py: process_tasks, wakeup", "asyncz/schedulers/asyncio.py: start_timer, stop_timer, wakeup"]}
{"id": "C86", "title": "A one-shot command does only what it was asked", "statement": "`asyncz list`, `inspect`, `preview`, `status`, `doctor`, \u2026 (without --bootstrap) leave every persistent store as it was, and every other command leaves what its one call made of it: the temporary scheduler of a command runs no task and changes no task on its own.", "quantifier": "All stores' contents, all configurations, clocks and triggers, every one-shot command, any number of queued wake-ups at any times", "why_tests_cant": "The temporary scheduler is started for real, so its first pass runs while the command ends; whether it touches a task depends on what is due at that moment and on which executors the stored tasks name.", "anchors": ["asyncz/cli/commands/list.py", "asyncz/cli/commands/pause.py", "asyncz/schedulers/base.py:start", "asyncz/schedulers/base.py:process_tasks", "asyncz/schedulers/asyncio.py:wakeup"]}
{"id": "C87", "title": "What a command does to a task lasts, whatever else is due", "statement": "After `asyncz pause`, `remove`, `resume`, `update` or `add` on a persistent store, the task is there paused, gone, with its new run time, changed, or added, and the command itself has not run it \u2013 even if other tasks of the store are due and are taken by the command's own scheduler. An unknown id (or, for add, a used id) makes the command fail and changes no task that is not due.", "quantifier": "All stores' contents, ids, clocks, triggers, and any number of wake-ups, in which other tasks may be due, run, raise or be removed", "why_tests_cant": "The queued first pass of the temporary scheduler runs after the call and before the shutdown and may do anything to the other tasks; that it cannot undo the call must hold for all of them.", "anchors": ["asyncz/cli/commands/pause.py", "asyncz/cli/commands/resume.py", "asyncz/cli/commands/remove.py", "asyncz/cli/commands/update.py", "asyncz/cli/commands/add.py", "asyncz/schedulers/base.py:process_tasks", "asyncz/schedulers/base.py:shutdown"]}
{"id": "C88", "title": "get_scheduler_info and doctor tell the truth", "statement": "`get_scheduler_info()` shows a start time and an uptime exactly while the scheduler is started, namely those of the `start` call that started it; its counts of scheduled, paused and pending tasks add up to the number of tasks, each task of each store being counted once; its aliases are those of the stores and executors. `asyncz doctor` says \"ready\" exactly if the scheduler is started and has a store and an executor, and \"failed\" exactly if one of them is missing; `asyncz instances` calls a started scheduler active and a stopped one stale.", "quantifier": "All histories of calls on a scheduler (including failed and nested starts and shutdowns), at any clock", "why_tests_cant": "The figures depend on the whole history: starts that fail, reference counted shutdowns, tasks moving between pending and stores; tests see a few freshly built schedulers.", "anchors": ["asyncz/schedulers/base.py:get_scheduler_info", "asyncz/cli/commands/doctor.py", "asyncz/cli/commands/instances.py", "asyncz/cli/commands/status.py"]}
{"id": "C89", "title": "What a command submits is run to its end", "statement": "A job that a one-shot command submits \u2013 by `asyncz run`, or because it was due when the command's scheduler woke up \u2013 is run to its end and its outcome reported before the command ends.", "quantifier": "All sets of due jobs, functions and coroutines with any number of suspensions, and any further rounds of the loop", "why_tests_cant": "How many rounds the event loop makes before asyncio.run cancels what is left is not visible in tests, which use functions that return at once.", "anchors": ["asyncz/cli/commands/run.py", "asyncz/executors/asyncio.py:do_send_task", "asyncz/schedulers/asyncio.py:wakeup", "asyncz/cli/utils.py"]}
{"id": "C90", "title": "asyncz start loads the jobs of its file or module", "statement": "`asyncz start --config` or `--module` adds each listed job to the scheduler, in order, and reports their number; an entry with a bad trigger or without a function makes it fail.", "quantifier": "All lists of entries, all schedulers, all functions and names", "why_tests_cant": "The loader must work for every entry; it is only tested with the constructor replaced.", "anchors": ["asyncz/cli/loader.py", "asyncz/tasks/base.py:Task.__init__"]}
{"id": "C91", "title": "start --watch reloads when a watched file changed", "statement": "At each poll `asyncz start --watch` reloads exactly if a watched file is missing or has another modification time than when last seen; a change is announced once; the watched files are those of the given ones that existed at the start.", "quantifier": "All sequences of states of the file system, all sets of files", "why_tests_cant": "The state of the watcher depends on the whole sequence of polls, including files that vanish and return.", "anchors": ["asyncz/cli/utils.py:collect_watch_targets", "asyncz/cli/utils.py:changed", "asyncz/cli/commands/start.py"]}
{"id": "C92", "title": "A bootstrap path gives one scheduler per process", "statement": "What `--bootstrap module:attr` loads is a scheduler; each later load of the same path, whatever else has been loaded in between, gives the same object without calling anything; a load that fails caches nothing; a path without colon fails without importing. The first load gives what the object named by the path (module before the first colon) provides: a class through get_scheduler() of an instance, another object through its get_scheduler(), any other callable by being called.", "quantifier": "All import systems and objects (classes, factories, providers \u2013 also ones that answer differently each time), all sequences of loads and cache clears", "why_tests_cant": "The cache must be right for every interleaving of paths and for objects of every shape.", "anchors": ["asyncz/cli/bootstrap_loader.py:load_bootstrap_scheduler", "asyncz/cli/bootstrap_loader.py:clear_bootstrap_cache"]}
{"id": "C93", "title": "An OrTrigger task runs at the union of its members' schedules", "statement": "A task with an `OrTrigger` (also nested) is run, each time once, exactly at the times from its addition on at which at least one of the members is scheduled (a date: its date; an interval: start + k\u00b7interval; a cron trigger: its matching times), up to the members' end dates, whatever the passes of the scheduler.", "quantifier": "All trees of OrTriggers and members, all histories of passes (also late ones), all times of addition", "why_tests_cant": "The run times result from a chain of calls, each fed with the run time before, which may stem from another member; tests call the combination once or twice.", "anchors": ["asyncz/triggers/combination.py:OrTrigger.get_next_trigger_time", "asyncz/triggers/base.py", "asyncz/schedulers/base.py:process_tasks"]}
{"id": "C94", "title": "Every flash message is shown once, in the answer to its request", "statement": "Every message a dashboard request raises (a run refused for the concurrency limit, a refused creation) is shown in the response to that request, exactly once and in order; no response shows another request's message and none is kept for later.", "quantifier": "All sequences of requests of a browser to the dashboard's routes, all ids of bulk actions and outcomes of the runs", "why_tests_cant": "Messages are kept in the session between requests; whether one is lost or shown twice depends on the order of visits.", "anchors": ["asyncz/contrib/dashboard/messages.py", "asyncz/contrib/dashboard/mixins.py:default_context", "asyncz/contrib/dashboard/controllers/tasks.py", "asyncz/contrib/dashboard/controllers/_helpers.py:render_table"]}
{"id": "C95", "title": "Messages are shown as text", "statement": "The texts of messages in a task table's response are shown as they are and cannot change the page's markup.", "quantifier": "All lists of messages, all inputs of the creation form", "why_tests_cant": "Injection depends on the text; tests use harmless ones.", "anchors": ["asyncz/contrib/dashboard/controllers/_helpers.py:_render_messages_oob", "asyncz/contrib/dashboard/controllers/tasks.py:TaskCreateController", "asyncz/cli/utils.py:import_callable"]}
{"id": "C96", "title": "A task's links lead to that task", "statement": "Every link and button in a task's row leads to the page or action it names, for that task.", "quantifier": "All task ids, filters, mount points", "why_tests_cant": "Ids are free texts; which of them a browser or the router takes for something else shows only for unusual ones.", "anchors": ["asyncz/contrib/dashboard/templates/tasks/_table.html", "asyncz/contrib/dashboard/application.py:create_dashboard_app", "asyncz/contrib/dashboard/config.py:get_effective_prefix"]}
{"id": "C97", "title": "Signing in leads to the page asked for", "statement": "A browser that is sent to the login page comes, after signing in, to the page it had asked for, and only there.", "quantifier": "All requests, sequences of attempts and paths", "why_tests_cant": "The target passes through a redirect, a query string, a hidden field and a redirect; each has its own escaping.", "anchors": ["asyncz/contrib/dashboard/admin/middleware/auth_gate.py", "asyncz/contrib/dashboard/admin/backends.py:login", "asyncz/contrib/dashboard/templates/login.html"]}
{"id": "C98", "title": "The dashboard's links carry the prefix under which it is reached", "statement": "The links of the dashboard's pages start with the prefix under which the browser reaches the dashboard: what the proxy or the server put in front, then the mount point.", "quantifier": "All settings, root paths and forwarded prefixes", "why_tests_cant": "The prefix is put together from up to four sources, each of which may be missing, be the root or overlap with another.", "anchors": ["asyncz/contrib/dashboard/config.py:get_effective_prefix", "asyncz/contrib/dashboard/mixins.py:default_context", "asyncz/contrib/dashboard/admin/middleware/forward_root_path.py"]}
{"id": "C99", "title": "In zones of constant offset an interval trigger runs through its grid", "statement": "In time zones of constant offset (such as UTC), an interval trigger without jitter answers first the earliest grid time not before the first call, then exactly one interval later each time, up to its end date, then None; it never raises.", "quantifier": "All valid interval triggers, all constant-offset zones, all numbers of calls and clock readings", "why_tests_cant": "The whole chain of calls, for every start, interval and end; tests look at a few calls.", "anchors": ["asyncz/triggers/interval.py:IntervalTrigger.get_next_trigger_time"]}
{"id": "C100", "title": "In zones of constant offset a cron trigger finds the next matching time", "statement": "In time zones of constant offset (such as UTC), a cron trigger without jitter always answers, with the earliest matching time from the start of its search on, and with None (or, at the end of the calendar, an exception) only if there is none up to its end date.", "quantifier": "All cron triggers with well-formed expressions, all constant-offset zones, previous times and clock readings from year 1 on", "why_tests_cant": "No bound on how far the next match lies or how often the search starts over; tests try some expressions.", "anchors": ["asyncz/triggers/cron/trigger.py:CronTrigger.get_next_trigger_time"]}
{"id": "C101", "title": "Scheduler sections under a thread lock exclude each other", "statement": "At most one thread is inside the sections protected by one of the scheduler's locks, in every interleaving and also if sections raise; file locks are released in every case.", "quantifier": "All interleavings of any number of threads, nested entries, bodies that raise", "why_tests_cant": "Exclusion quantifies over schedules.", "anchors": ["asyncz/locks.py", "asyncz/file_locking.py"]}
{"id": "C102", "title": "A call that validation accepts binds", "statement": "If the callable's arguments are accepted when a task is made, calling the function with them binds: no TypeError for missing, surplus, unknown or doubled arguments.", "quantifier": "All signatures, numbers of positional arguments and sets of keywords", "why_tests_cant": "All combinations of parameter kinds and arguments; tests try a few.", "anchors": ["asyncz/utils.py:check_callable_args"]}
{"id": "C103", "title": "An AsyncIOScheduler never has two event loop threads", "statement": "At any time at most one thread with an event loop of the scheduler exists, and its loop is the one in use.", "quantifier": "All histories of starts (also failing ones), shutdowns and posted shutdowns", "why_tests_cant": "Histories are unbounded and include delayed shutdowns.", "anchors": ["asyncz/schedulers/asyncio.py"]}
{"id": "C104", "title": "An executor begins each accepted run at most once, in order, and loses none", "statement": "Every accepted run is at any time at exactly one place (queued, running, reported, cancelled), is begun at most once, and runs are begun in the order of submission by no more workers than configured; without a cancelling shutdown nothing is cancelled.", "quantifier": "All histories of submissions, ends, failures and shutdowns of every executor kind", "why_tests_cant": "Order and uniqueness quantify over histories.", "anchors": ["asyncz/executors/pool.py", "asyncz/executors/asyncio.py", "asyncz/executors/base.py"]}
{"id": "C105", "title": "The dashboard records every scheduler event exactly once", "statement": "Each event of a scheduler is recorded exactly once by each of the dashboard's listeners installed for it, in order and in the storage of the last installation for that scheduler; nothing else is recorded, and the user's listeners stay as they are.", "quantifier": "All histories of schedulers made and destroyed, (re)installations, registrations and events", "why_tests_cant": "Double registration shows only after several installations and recycled object addresses.", "anchors": ["asyncz/contrib/dashboard/events.py:install_scheduler_event_listener", "asyncz/contrib/dashboard/history.py:install_run_history_listener"]}
{"id": "C106", "title": "What `asyncz start` starts, it stops, one at a time", "statement": "Every scheduler `asyncz start` starts is stopped exactly once when the command ends, after the stop hook was called for it; across reloads no two schedulers run at the same time, and registered shutdown tasks are run.", "quantifier": "All options, sequences of polls, reloads, failures of every step, and moments of an interrupt", "why_tests_cant": "Each step of the coroutine may fail or be interrupted, and the event loop runs what was posted only when the coroutine is suspended: the histories are unbounded.", "anchors": ["asyncz/cli/commands/start.py:start", "asyncz/schedulers/asyncio.py:AsyncIOScheduler.shutdown", "asyncz/schedulers/base.py:shutdown", "asyncz/schedulers/utils.py:run_in_event_loop"]}
{"id": "C107", "title": "Log messages of worker processes arrive once and in order", "statement": "What tasks log in the worker processes of a ProcessPoolExecutor is passed to the executor's logger, each message once, in the order of its process; when shutdown returns all of it has been passed on, and shutdown(wait=False) does not wait for running tasks.", "quantifier": "All interleavings of any number of worker processes, messages of any size, pipe capacities, moments of shutdown", "why_tests_cant": "The processes write to one pipe concurrently while a thread reads it; order, loss and blocking depend on the interleaving.", "anchors": ["asyncz/executors/process_pool.py:ProcessPoolLoggerSender", "asyncz/executors/process_pool.py:ProcessPoolReceiver", "asyncz/executors/process_pool.py:ProcessPoolExecutor.shutdown"]}
{"id": "C108", "title": "A shape restores what it dumped", "statement": "Restoring an object from the dump its shape made of it gives an equal object, also with exclude_none.", "quantifier": "All classes (fields, defaults, parameters), all objects with values nested to any depth", "why_tests_cant": "Values nest without bound, and classes differ in which fields are parameters and have defaults.", "anchors": ["asyncz/shapes/builtins.py:DataclassShape", "asyncz/shapes/builtins.py:AttrsShape", "asyncz/shapes/builtins.py:MsgspecShape", "asyncz/shapes/base.py:dump_plain"]}
{"id": "C109", "title": "A shape's field metadata tells how a class is constructed", "statement": "A field is reported as required exactly if the class cannot be constructed without it, and the default reported is the value an object constructed without the field gets.", "quantifier": "All classes and fields of the supported libraries, all arguments", "why_tests_cant": "Depends on every combination of defaults, factories and parameters.", "anchors": ["asyncz/shapes/builtins.py:DataclassShape.fields", "asyncz/shapes/builtins.py:AttrsShape.fields", "asyncz/shapes/builtins.py:MsgspecShape.fields", "asyncz/shapes/builtins.py:PydanticShape.fields", "asyncz/shapes/base.py:ShapeField"]}
{"id": "C110", "title": "Processes that share a file store lose no task", "statement": "When several processes add, update, read and delete the same task id of a shared directory, an added task is there until some process deletes it, every read returns a complete record, and a writer holds the file alone.", "quantifier": "All numbers of processes, all operations, all interleavings of their system calls, all record bytes and buffer sizes", "why_tests_cant": "The loss needs a particular interleaving of system calls in different processes.", "anchors": ["asyncz/stores/file.py:lookup_task", "asyncz/stores/file.py:add_task", "asyncz/stores/file.py:update_task", "asyncz/stores/file.py:delete_task", "asyncz/file_locking.py:with_lock"]}
{"id": "C111", "title": "A dashboard list page shows the newest matching entries, up to the number asked for", "statement": "The events, audit, history and log pages read filters and a limit from the URL. Whatever was recorded and whatever the parameters are, the rows shown are the newest recorded entries that fit every filter given, newest first, and there are as many as the limit asks for (between 1 and 1000; 200 if it is missing or not a number), as far as there are any. The counts at the top are those of everything recorded, and every value offered in a drop-down list finds the entries of that kind.", "quantifier": "All recorded sequences of events, audit records, runs and log lines, all URL parameters, all capacities", "why_tests_cant": "The space of filter combinations, limits and recorded sequences is infinite; eviction and filters interact.", "anchors": ["asyncz/contrib/dashboard/controllers/events.py:build_events_context", "asyncz/contrib/dashboard/controllers/audit.py:build_audit_context", "asyncz/contrib/dashboard/controllers/history.py:build_history_context", "asyncz/contrib/dashboard/controllers/history.py:HistoryDetailController.get", "asyncz/contrib/dashboard/controllers/logs.py:build_log_context"]}
{"id": "C112", "title": "The overview, runtime and instances pages agree with the scheduler", "statement": "The runtime page has one row for every registered store and executor, sorted, and beside each the number of its tasks. The instances page shows this scheduler as active exactly while it is started. The overview page shows the first ten tasks, each with the last run of that task, and the six latest runs.", "quantifier": "All histories of scheduler calls, all stores, all run histories", "why_tests_cant": "The counts must be right after every history of calls.", "anchors": ["asyncz/contrib/dashboard/controllers/runtime.py:build_runtime_context", "asyncz/contrib/dashboard/controllers/instances.py:build_instances_context", "asyncz/contrib/dashboard/controllers/home.py:DashboardController.get", "asyncz/contrib/dashboard/history.py:latest_for_task"]}
{"id": "C113", "title": "A setting has the value of its environment variable", "statement": "When a settings object is made, every declared setting whose environment variable (the name in capitals) is set has the value the text stands for under the declared type (truth values: true, 1, yes, on, y in any case; optional types as their member), every other has the keyword argument, else the class default; a text that stands for no value raises; the dump shows every declared setting.", "quantifier": "All settings classes and class hierarchies, all environments, all keyword arguments, all texts", "why_tests_cant": "The classes are written by users; the environments and texts are unbounded.", "anchors": ["asyncz/conf/global_settings.py:BaseSettings.__init__", "asyncz/conf/global_settings.py:safe_get_type_hints", "asyncz/conf/global_settings.py:_cast", "asyncz/conf/global_settings.py:_extract_base_type", "asyncz/conf/global_settings.py:dict", "asyncz/conf/global_settings.py:Settings"]}
{"id": "C114", "title": "The page of a task shows that task, its next runs, its last runs and its last messages", "statement": "The page of a task id answers 404 exactly if no store and no pending task has that id; otherwise it shows the task that other calls with that id are about, its next five runs (fewer only if the trigger has no more, which it says), the six runs of that id seen last and the six newest stored log messages for that id. A trigger that raises leaves the page without preview only.", "quantifier": "All reachable scheduler states, triggers, recorded histories and logs, ids and times", "why_tests_cant": "Scheduler states, histories and buffers are unbounded.", "anchors": ["asyncz/contrib/dashboard/controllers/tasks.py:TaskDetailController"]}
{"id": "C115", "title": "A scheduler wrapped around ASGI applications runs exactly while one of them is up", "statement": "If a scheduler is wrapped around any number of ASGI applications with asgi(), it is running exactly while at least one of them has been started (lifespan.startup) and not shut down; a shutdown of an application that is not up does nothing; a startup that is answered with complete leaves the scheduler running.", "quantifier": "All sequences of lifespan messages to any number of applications, interleaved with any other scheduler calls and turns of the event loop", "why_tests_cant": "The servers, the number of applications and the interleaving with other calls are unbounded.", "anchors": ["asyncz/schedulers/base.py:BaseScheduler.asgi", "asyncz/schedulers/asyncio.py:AsyncIOScheduler.shutdown", "asyncz/schedulers/base.py:BaseScheduler.start"]}
{"id": "C116", "title": "A cron field is read as it is written", "statement": "The text of a cron field is accepted exactly when, apart from white space around the whole, it is a comma-separated list whose items are *, */n, a, a-b, a/n, a-b/n with decimal numbers, or, where the field has them, names of months or weekdays (or ranges of them), '<position> <weekday>' or 'last', in any case of letters, with values of the field, no range backwards, no step of zero or longer than its range; it then means exactly these expressions, in the order written. Every other text is refused with ValueError.", "quantifier": "All texts and all eight fields", "why_tests_cant": "The texts are infinitely many; tests try a few dozens.", "anchors": ["asyncz/triggers/cron/fields.py:BaseField.compile_expressions", "asyncz/triggers/cron/fields.py:BaseField.compile_expression", "asyncz/triggers/cron/expressions.py:AllExpression", "asyncz/triggers/cron/expressions.py:RangeExpression", "asyncz/triggers/cron/expressions.py:MonthRangeExpression", "asyncz/triggers/cron/expressions.py:WeekdayRangeExpression", "asyncz/triggers/cron/expressions.py:WeekdayPositionExpression", "asyncz/triggers/cron/expressions.py:LastDayOfMonthExpression"]}
{"id": "C117", "title": "A scheduler that is killed and started again skips no run", "statement": "A scheduler process on a persistent store whose writes are made completely or not at all (a database) is killed any number of times, at any points of its processing passes, and each time another process starts a scheduler on the same store, with a program that does not add the task again with replace_existing. For a task whose trigger's answer depends only on the previous run time and goes forward: every successive time of the trigger up to the latest completed pass has been handed to the executor (a later one for it if the task coalesces), unless the instance limit was reached; nothing else was handed over, and never before its time; no time was handed over more than once plus once for each death; and the stored next run time is the one that follows.", "quantifier": "Every lawful store and state, every number of deaths, every point of a pass (between stores, between tasks, between the hand-over of a task and the storing of its next time), every history of passes at arbitrary times, every regular trigger", "why_tests_cant": "A crash point is a moment between any two effects of any pass of an unbounded history; tests do not kill the process.", "anchors": ["asyncz/schedulers/base.py:BaseScheduler.process_tasks", "asyncz/schedulers/base.py:BaseScheduler._process_tasks_of_store", "asyncz/schedulers/base.py:BaseScheduler.start", "asyncz/tasks/base.py:Task.get_run_times"]}
{"id": "C118", "title": "A process killed while it changes a file store leaves the old or the new task", "statement": "If a process is killed at any moment of adding, updating or removing a task in a file store, the next process that looks finds the task as it was before or as it was to become; it is not lost.", "quantifier": "Every operation, every system call after which the process may die, every size of record and of file buffer", "why_tests_cant": "The moments at which a process can die are between any two system calls; tests do not kill the process there.", "anchors": ["asyncz/stores/file.py:FileStore.add_task", "asyncz/stores/file.py:FileStore.update_task", "asyncz/stores/file.py:FileStore.delete_task", "asyncz/stores/file.py:FileStore.lookup_task", "asyncz/stores/file.py:FileStore.get_tasks"]}
{"id": "C119", "title": "The answers of the control application tell how the call ended", "statement": "Whatever HTTP request is sent to the worker's control application (any method, path, query, body and token), either it does not reach the scheduler - then the answer has a status of 400 or more, is the same whatever the scheduler and changes nothing - or it stands for exactly one scheduler call: that call alone is made, with the task id of the path and the filters of the query (descending for 1, true and yes in any case, empty values as if they were missing), and the answer says how the call ended: 200 with the JSON of what it returned, 404 naming the task if the task is not there, 409 if an action is refused because the scheduler is not running or the task has all its instances, 400 for every other exception of a call that lists or changes something, each with class name and text of the exception, 500 for an exception of a call that looks at one thing, and 400 or 500 if what the call returned has no JSON.", "quantifier": "all requests, tokens, schedulers (any functions for the calls) and states", "why_tests_cant": "Tests try a few requests against one scheduler; the contract ranges over all requests, all exceptions and all schedulers.", "anchors": ["asyncz/contrib/dashboard/remote.py: create_remote_scheduler_app, _success, _error, _json_body, _require_token", "asyncz/exceptions.py"]}
{"id": "C120", "title": "A remote call ends in a documented way and is made at most once", "statement": "Whatever answers a call of the remote scheduler client - the worker, something else in its place, or nobody - the call either returns the data of the answer or raises TaskLookupError, SchedulerNotRunningError, MaximumInstancesError or ValueError if that is what the answer calls its error (about the task and with the count and message of the answer), or else RemoteSchedulerError with the message of the answer, its error name, or the reason why there is no connection; the request goes to the base url however many slashes it was given with; and the worker's scheduler is afterwards in the state it was in or in the state that one direct call leaves it in, the first if there was no connection.", "quantifier": "all answers (status and body), network failures, clients, calls, schedulers and states", "why_tests_cant": "Tests use a transport that always answers, with a handful of answers; the property ranges over every answer and every point where the network may fail.", "anchors": ["asyncz/contrib/dashboard/remote.py: RemoteSchedulerClient.__init__, _headers, _urllib_request, _request, _raise_remote_error, lookup_task, running"]}
{"id": "C121", "title": "Between two changes of the clocks a task runs at exactly its times, in any time zone", "statement": "In time zones with daylight saving, as long as the times involved lie in a period in which no clock is changed: a task with an interval trigger without jitter (not coalescing) that is scheduled at t0, its start date in the period, is run, over any history of passes at which it could be served, at exactly the points start + k*interval with t0 <= point up to the latest pass and the end date, each once and in order; a task with a cron trigger without jitter at exactly the matching local times of the calendar not before t0 and the start date, up to the latest pass. The same from any later moment on, starting with the next run time the task then has.", "quantifier": "all time zones and periods without a change of the clocks that contain the start date, the scheduling time and the next time after the latest pass; all interval and cron triggers, stores, states and histories of passes", "why_tests_cant": "Tests run in UTC or in the zone of the machine on the day of the test; the property ranges over all zones, periods and schedules.", "anchors": ["asyncz/triggers/interval.py: IntervalTrigger.get_next_trigger_time", "asyncz/triggers/cron/trigger.py: CronTrigger.get_next_trigger_time", "asyncz/schedulers/base.py: process_tasks", "asyncz/tasks/base.py: get_run_times"]}
{"id": "C122", "title": "The timeline shows each task's own upcoming runs", "statement": "The timeline of the dashboard and the command `asyncz timeline` show, for every task of the scheduler, its own next per_task run times (or all it has), the earliest `limit` of all of them in the order of time, with the number of runs, of tasks and of tasks without further runs; they are shown whenever the triggers can be asked; and a task that is shown with run times runs at these times if nothing is changed.", "quantifier": "all reachable states of the scheduler, stores, triggers, numbers per task and limits, and all histories of passes after it", "why_tests_cant": "Tests look at one or two tasks with distinct ids in one store; the property ranges over all states, also with equal ids in several stores and with paused tasks, and over what happens afterwards.", "anchors": ["asyncz/contrib/dashboard/controllers/timeline.py: build_timeline_context", "asyncz/cli/commands/timeline.py: _timeline_payload", "asyncz/schedulers/base.py: get_task_infos, preview_task_runs"]}
{"id": "C123", "title": "The scheduler's promises hold whichever built-in stores are used", "statement": "A scheduler with any mixture of memory, SQL, MongoDB, file and Redis stores keeps its promises about runs: from the moment a task is added, whatever happens to other tasks, every run time of its trigger up to the latest pass is reported exactly once and in order and given to the executor, and after any number of deaths of the process each is given to it at least once and at most once more for each death.", "quantifier": "all mixtures of the five stores and their contents, tasks, configurations, histories of passes, of crashes between store calls and of other activity in between, and times", "why_tests_cant": "Tests use one store at a time and few passes; the property ranges over all histories and mixtures of stores with different rules on ids and times.", "anchors": ["asyncz/schedulers/base.py: process_tasks, _process_tasks_of_store, real_add_task, start", "asyncz/stores/file.py: FileStore", "asyncz/stores/redis.py: RedisStore", "asyncz/stores/sqlalchemy.py: SQLAlchemyStore", "asyncz/stores/mongo.py: MongoDBStore", "asyncz/stores/memory.py: MemoryStore"]}
{"id": "C124", "title": "Every scheduled run is in the run history, once, with how it ended", "statement": "While the dashboard's history has room, it has exactly one record for every run of a task that the scheduler reported, and none for other times of the task: from the trigger's run times over the passes of the scheduler, the executors and the events to the page. The record says that the run was skipped because too many instances were running, that it is in progress, or that it succeeded, failed or was missed, and that is what happened; it does not matter in which order runs end, nor whether a run ends before the event of its submission is dispatched.", "quantifier": "all stores, tasks, histories of passes of the scheduler and of other activity in between, orders and moments at which executors end the runs, outcomes of the functions, and times", "why_tests_cant": "Tests look at one event or one run; the property joins scheduler, executor and history over all interleavings of ends of runs with passes.", "anchors": ["asyncz/schedulers/base.py: _process_tasks_of_store, process_tasks", "asyncz/executors/base.py: run_task, run_task_success", "asyncz/contrib/dashboard/history.py: MemoryRunHistoryStorage, RunHistory listener", "asyncz/tasks/base.py: update_task (store_alias)"]}
{"id": "C125", "title": "Every run of a recurring task is submitted once and on time", "statement": "While a scheduler runs on an event loop that answers its wake-ups and its timer within a latency, every run time of a scheduled recurring task is submitted exactly once (or reported as one instance too many), at a pass that comes when it is due and no later than the latency after it; nothing else is submitted for the task. After a pass that met a taken lock or a failing store, the retry interval is allowed in addition. For interval and cron triggers the run times are the points of the interval's grid and the matching times of the calendar, from add_task on.", "quantifier": "every lawful task store, every forward trigger and the built-in interval and cron triggers (in zones of constant offset, and in any zone over a period without a change of the clocks), every history before (without forced runs and passes that raise), every interleaving of passes, passes that fail, and other calls that leave the task alone, every latency", "why_tests_cant": "A test waits for a handful of runs with generous tolerances; that no interleaving of timers, wake-ups, locks and calls ever loses, doubles or delays a run needs an invariant.", "anchors": ["asyncz/schedulers/base.py: process_tasks", "asyncz/schedulers/asyncio.py: AsyncIOScheduler.start_timer", "asyncz/schedulers/asyncio.py: AsyncIOScheduler.wakeup", "asyncz/tasks/base.py: get_run_times"]}
{"id": "C126", "title": "Cron expressions, cron fields and tasks are equal when they are the same", "statement": "Comparing two cron expressions, or two cron fields, with == never raises and holds exactly when they were made alike (same kind and values; for fields also the same name and the same expressions in order), whichever comes first. Tasks with an id are equal exactly when their ids are.", "quantifier": "all pairs of expressions, of fields (with or without shared expression objects) and of tasks", "why_tests_cant": "Six classes of expressions give 36 kinds of pairs, each compared by the __eq__ of one or the other class depending on their inheritance, with all values; tests compare a few.", "anchors": ["asyncz/triggers/cron/expressions.py: AllExpression.__eq__", "asyncz/triggers/cron/expressions.py: RangeExpression.__eq__", "asyncz/triggers/cron/expressions.py: WeekdayPositionExpression.__eq__", "asyncz/triggers/cron/fields.py: BaseField.__eq__", "asyncz/tasks/base.py: Task.__eq__"]}
{"id": "C127", "title": "A trigger's description determines its schedule", "statement": "Two triggers shown with the same description (task.trigger_description, str(trigger)) have the same schedule up to start and end dates, time zones and jitter: dates of the same second, intervals of the same length, cron triggers whose fields, given or by default, have the same expressions, or and/or combinations of such triggers in the same order.", "quantifier": "all pairs of date, interval, cron and (nested) combined triggers, with all texts of cron fields the constructor accepts", "why_tests_cant": "The description is a concatenation without escaping of dates, lengths, comma-separated expressions and the descriptions of members; that no two schedules share one is a statement about all pairs of nested triggers.", "anchors": ["asyncz/triggers/base.py: BaseCombinationTrigger.__str__", "asyncz/triggers/date.py: DateTrigger.__str__", "asyncz/triggers/interval.py: IntervalTrigger.__str__", "asyncz/triggers/cron/trigger.py: CronTrigger.__str__", "asyncz/utils.py: datetime_repr"]}
{"id": "C128", "title": "Every call of a shape ends in a result or in the documented shape error", "statement": "construct and validate of every built-in shape give a result or raise a ShapeValidationError, load a ShapeDeserializationError, dump a ShapeSerializationError, fields and schema a ShapeCapabilityError, and a missing optional library is a ShapeDependencyError, whatever the validation library and the class do. The library's own error is attached as the cause, an instance is given back as it is, a result is what the shape's own library made of the given value, and requests to stop pass through unchanged.", "quantifier": "all shapes, model types, values, modes, and all behaviours (results and errors) of the libraries and user classes", "why_tests_cant": "What constructors, validators and serializers raise is unbounded; tests show single errors, not that no other kind of error gets out.", "anchors": ["asyncz/shapes/base.py: Shape", "asyncz/shapes/builtins.py: PydanticShape, DataclassShape, AttrsShape, MsgspecShape, AnyShape", "asyncz/shapes/errors.py"]}
{"id": "C129", "title": "The commands that show something write one JSON document with --json, and leave schedulers as they found them.", "statement": "asyncz list, status, preview, inspect, doctor, instances and timeline with --json write exactly one JSON document, what the scheduler answered, to standard output, or nothing when they fail before; without --json they write the lines for a reader and no JSON. A temporary scheduler is always shut down, an application's never, and status, doctor and instances do not start it. doctor --strict succeeds only for health ok and shows its report either way; nothing else about the answer makes a command fail.", "quantifier": "all seven commands, options, payloads, and all combinations of calls that fail or succeed", "why_tests_cant": "Scripts parse this output; whether every combination of options and failures of the calls involved leaves it parseable and the scheduler shut down is not settled by running single commands.", "anchors": ["asyncz/cli/commands/list.py", "asyncz/cli/commands/status.py", "asyncz/cli/commands/preview.py", "asyncz/cli/commands/inspect.py", "asyncz/cli/commands/doctor.py", "asyncz/cli/commands/instances.py", "asyncz/cli/commands/timeline.py"]}
