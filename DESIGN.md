# Formal model of g3log

Source: /repo (C++), read as text, never built or run. Lean 4.33.0; Mathlib is imported one module at a time.

The properties are in `properties.jsonl`, their status and theorems in `MANIFEST.json`, attempts to break the theorems in
`seeded/LOG.jsonl`.

## Layout

* `lean/Verif/Model/*`  transcription of the C++ code, function by function; every definition cites file and lines.
* `lean/Verif/Spec/*`   small independent specifications (they use no helper of the model apart from the type of strings and messages).
* `lean/Verif/Proofs/*` helper lemmas.
* `lean/Verif/Props/*`  the property theorems (`Cxx_...`) with examples showing that their hypotheses can be met.

A theorem `Cxx_negation` shows that the code violates property Cxx; then `Cxx_..._partial` is the strongest version found that is true, and a
theorem `Cxx_exact` (or similar) says what exactly the code does instead.

## Conventions

* `Str = List Char`; one element is one C++ `char`.
* `std::map<int,...>` is an association list kept sorted by key.
* Undefined behaviour, thrown exceptions, `assert` failures and process exit are distinct outcomes of the model, never silently totalised.
* Concurrency: small-step interleaving semantics. `step : State -> Label -> Option State`; a schedule is an arbitrary list of labels; numbers of
  threads, sinks, messages and calls are arbitrary. Theorems quantify over all schedules (`run start ls = some s`).
* External calls (clock, thread id, `strftime`, `vsnprintf`, `backtrace_symbols`, `abi::__cxa_demangle`, `sigaction`, opening files, `StackWalk64`,
  the symbol server) are parameters of the model; the theorems hold for every value of them.

## Trusted base

1. The Lean 4.33.0 kernel, and the axioms `propext`, `Classical.choice` and `Quot.sound`. No theorem uses any other axiom (no `sorry`, no axiom
   of our own, no `native_decide`, no `bv_decide`). The table at the end lists the axioms of every property.
2. The transcription of the C++ code into `Verif/Model`, which was made by reading. Each definition names the lines it renders.
3. The assumptions about the C++ language and its library listed below.

### Assumptions about the environment

* `std::string` operations (`find`, `find_last_of`, `rfind`, `substr`, `replace`, `to_string`, `c_str`) behave as in the standard (Model/Str, Model/CrashText).
* `std::mutex`, `std::condition_variable`: one owner, atomic release-and-wait, spurious wake-ups possible, `notify_one` wakes any waiter (Model/Queue).
* `std::thread`, `join`, `std::shared_ptr`/`weak_ptr` counts, `std::packaged_task`/`std::future` (value, exception or broken promise) as in the standard
  (Model/Active, Model/Worker, Model/Future).
* `std::call_once` fires once; `std::atomic` is sequentially consistent (the code uses the default order).
* `vsnprintf` returns the length of the full text and stores as much as fits (Model/Capture). `strftime` for `%Y %m %d %H %M %S %%` as in ISO C in the C locale,
  all other conversions unrestricted (Model/Time).
* The file system maps path strings to contents; two different path strings are different files; an `ofstream` may hand any part of its buffer
  to the system at any time; writes do not fail (Model/FileSink), or fail at any point, upon which the stream accepts no more text until it is replaced (Model/FileErrors).
* The kernel's table of signal dispositions; a signal is blocked in the thread that runs its handler (Model/Signals).
* Windows: values of the EXCEPTION_* codes, SIGFPE/SIGILL/SIGSEGV per thread and SIGABRT/SIGTERM per process (Model/Windows).

### What is modelled

| source | model | remarks |
|---|---|---|
| loglevels.cpp, loglevels.hpp, atomicbool.hpp | Model/Levels, Model/LevelThreads | all functions, dynamic and static builds; every call as a program of single memory accesses on any number of threads |
| g3log.hpp (macros) | Model/Macros, Model/Statement | LOG, LOG_IF, CHECK and their printf forms; user expressions are arbitrary state transformers; Statement: they may throw or leave the stream in a failed state |
| logcapture.cpp/.hpp | Model/Capture, Model/CaptureWindows | both constructors, destructor, capturef (both branches), setMaxMessageSize |
| logmessage.cpp/.hpp | Model/LogMessage | constructors, copy, move, assignment, swap, all formatting functions, FatalMessage |
| g3log.cpp | Model/Capture, Model/Front, Model/Race, Model/FatalThreads, Model/InitRace, Model/FatalExit | saveMessage, saveFatalMessage, push functions, initialise, shut down, hooks; the unsynchronised pointer accesses as a transition system; saveFatalMessage on several threads at once; LOG on many threads while initializeLogging runs; FatalExit: fatal events on several threads up to the end of the process, with bgFatal, signalHandler and exitWithDefaultSignalHandler |
| crashhandler_unix.cpp | Model/CrashText, Model/Signals, Model/SignalDiag | exitReasonName, signalHandler, stackdump, install, restore, override, exit path, concurrent signals; SignalDiag: every call of sigaction may be refused, with the text on stderr |
| crashhandler_windows.cpp, stacktrace_windows.cpp | Model/Windows, Model/SignalDiag | exception tables, handlers, installation, stack dump |
| time.cpp, time.hpp | Model/Time | fractions, put_time (POSIX branch), localtime_formatted, to_system_time |
| g3log.hpp:140-226 as text | Model/MacroText | what the preprocessor makes of logging statements, token by token; the grammar of statements is in Spec/MacroText |
| time.cpp:108-115, 132-150 | Model/TimeWindows | put_time on Windows: `std::put_time` goes through the format, each conversion is a parameter |
| filesink.cpp, filesinkhelper.ipp | Model/FileName, Model/FileSink, Model/FileSinks, Model/FileErrors, Model/FileRelease, Model/FileDiag | all functions; FileSinks: any number of sinks on one file system; FileErrors: with failing writes; FileRelease: compiled with NDEBUG; FileDiag: with the text on stderr |
| shared_queue.hpp | Model/Queue | down to lock, unlock, wait and notify |
| active.hpp | Model/Active, Model/ActiveLocks | on top of the atomic queue; ActiveLocks on top of the queue with its locks |
| active.hpp, shared_queue.hpp, future.hpp | Model/Visibility | several objects at once, with the operations that the C++ memory model knows |
| future.hpp, sinkhandle.hpp | Model/Future, Model/Worker | |
| sinkhandle.hpp:35-49, sink.hpp:70-73 | Model/CallArgs (specification Spec/CallArgs: calls made at once) | arguments are cells with a text; nested std::bind arguments and copy constructors that throw are left out |
| logmessage.cpp:171-175, crashhandler_unix.cpp:75-81, 171-186, 193-217 in other locales | Model/Locale (specification Spec/Locale: [locale.numpunct.virtuals]) | the global std::locale as separator and grouping of numbers, libstdc++; `std::cerr` keeps the classic one. The `true`/`false` at g3log.cpp:63-64 and formats of the user are not covered |
| moveoncopy.hpp | Model/MoveOnCopy | |
| logworker.cpp:31-35, 38-55 | Model/StderrText | the text that the worker writes to stderr; its order is that of Model/Worker |
| logworker.cpp/.hpp, sink.hpp | Model/Worker, Model/WorkerLocks, Model/WorkerSignal, Model/SinkThrow, Model/SinkUse, Model/WinWorker, Model/Delivery | worker thread, sink threads, clients, destructor, fatal exit; WorkerLocks: the same down to lock, unlock, wait and notify on all queues; fatal events on the worker's own thread; SinkThrow: callbacks that throw; SinkUse: callbacks that use the library (log, call sinks, wait, add and remove sinks); WinWorker: exceptions on Windows, which do not end the process; Delivery: the message objects on the way to the callbacks |
| global variables of g3log.cpp, crashhandler_unix.cpp, logcapture.cpp | Model/Globals | every function as a program of single accesses, locks and once-flags; happens-before and data races |
| end of the program through exit() | Model/ExitPath | static or other LogWorker; exit called by a thread of the program or, after a fatal event that the process survives, by the worker thread |
| static objects that use the library | Model/StaticOrder | order of construction and destruction of the library's source files and the program's objects; use of objects that do not exist yet or any more is a separate outcome |
| a forked child | Model/WorkerLocks, Spec/Fork | the child has a copy of the state and of the threads only the one that forks, which is not inside the library at that moment (threads and sinks made later in the child do run); restrictions of POSIX on what may be called after fork are ignored, and `g_logging_init_mutex` is free |
| requests for memory and threads that fail: `createLogWorker`, `addSink`, `removeSink`, `removeAllSinks`, `~LogWorker`, LOG | Model/Resources | one client thread; one request stands for everything one expression asks for and an expression whose request fails has no effect; the threads of worker and sinks run at once; clients hold handles only; the stream of a LOG swallows its own failure and drops the rest; the texts on stderr are left out |
| requests for memory that fail in fatal statements (`~LogCapture`, `saveFatalMessage`, `pushFatalMessageToLogger`, `bgFatal`), `setFatalPreLoggingHook`, `SinkHandle::call` | Model/FatalResources | as in Model/Resources; the hook of the client does not fail itself; a message is its text, its formatting a parameter; `std::terminate` is an end of its own, what the handler of SIGABRT makes of it is left out |
| destructors of real sinks (`sink.hpp`: members after `~Sink`; `removeSink`, `removeAllSinks`, `bgFatal`, `~LogWorker`) that log or make synchronous calls | Model/SinkDtor | Model/Worker plus `g_logger_instance` as a flag (one worker, not initialised again) and the wait of the worker thread inside a destructor; a fatal event when the flag is off ends the process at once and is left out, fatal events in destructors are Model/SinkDtorFatal |
| time stamps and order (`logcapture.cpp: ~LogCapture`, `logmessage.cpp: LogMessage`, `g3log.cpp: saveMessage, pushMessageToLogger, saveFatalMessage, pushFatalMessageToLogger, initializeLogging`) | Model/Stamps | threads with nested statements (operands and hooks that log), a clock that runs and may be set; texts and levels left out; hand-over is one step |
| a change of the handled signals, one system call at a time (`crashhandler_unix.cpp: overrideSetupSignals, restoreSignalHandler, installSignalHandler`) | Model/SignalSteps | the moments between `sigaction` and the change of the map included; calls one after the other; the map changes in one step |
| `Options.cmake`, `GenerateMacroDefinitionsFile.cmake` and the preprocessor conditions of all sources | Model/BuildOptions | CMake lists are lists of strings; of the preprocessor only block comments and `#define` at the beginning of a line; compilers are four kinds |
| `signalHandler`, `shouldDoExit`, `installSignalHandler` in `crashhandler_unix.cpp` around `saveFatalMessage`, on the thread of a hook that crashes | Model/HookCrash | kernel rules for blocked, pending and synchronous signals after POSIX; signals without g3log's handler end the process; what the handler captures is given |
| Locks taken by the signal handler (`crashhandler_unix.cpp`), `setFatalPreLoggingHook`, the queue and the C library's heap | Model/SignalLocks | threads are sequences of lock operations that do not depend on the schedule; the heap is one lock that is not recursive |
| The file sink on files that other programs rename, link, remove, empty, replace or extend (`filesink.cpp`, `filesinkhelper.ipp`) | Model/ExternalFiles | the sink is that of Model/FileSink; POSIX files with numbers and names, no directories; opening by the sink succeeds or not as given; single writes of the others are atomic |
| Signal masks of the threads and the choice of the receiving thread (`crashhandler_unix.cpp`, `logworker.cpp`) | Model/SignalMask | a new thread inherits the mask of its creator (POSIX); pending signals are a set with counts that nobody reads; a blocked fault kills; the handler of a first signal queues the message and sleeps; sinks are only asleep or not |
| Room on the stack for log statements and the signal handler (`crashhandler_unix.cpp`, `logcapture.cpp`, `g3log.cpp`) | Model/StackRoom | one thread; sizes are given numbers; a handler that runs out of stack kills the process; the kernel kills the process if it cannot make the frame of a signal |
| Which memory a message refers to (`logcapture.hpp/.cpp`, `saveMessage`, `logmessage.cpp`, `filesink.cpp`) | Model/Unload | memory is cells with an owner; statements that are not fatal, one sink, begin/stream/end in single steps; the formatter is recorded, not executed |
| Logging statements inside logging statements (`g3log.hpp`, `logcapture.hpp/.cpp`, `g3log.cpp`) | Model/Nested | a stack of captures for each thread; what an insertion does is a function of the format state of its stream; levels that are off, exceptions and handing over as in other models |
| LOG statements in signal handlers of the program (`logcapture.cpp`, `g3log.cpp`, `logworker.cpp`, `shared_queue.hpp`) | Model/HandlerLog | threads as in Model/SignalLocks, as lists of locks; a pile of handlers on each thread; the locks belong to the thread |
| changes of the time zone while the program logs (`logmessage.cpp` timestamp, `time.cpp` localtime, put_time) | Model/ZoneChange | `localtime_r` and `strftime` as POSIX has them: the zone the C library has loaded, and when it loads; whether `localtime_r` looks at TZ is a parameter; stamps are those of Model/Time |
| setting of the system clock while the program logs (`time.hpp` to_system_time, `logmessage.cpp`) | Model/ClockSet | two clocks that run at the same rate; the two statics are read in separate steps; conversion as in Model/Time |
| log files that are open in programs which the logging program has started (`filesinkhelper.ipp` openLogFile, `filesink.cpp`) | Model/Inherit | POSIX open, fork, exec: a file opened without close-on-exec goes to every started program; content of files is not looked at |
| `errno` in and after logging statements (`g3log.hpp` macros, `logcapture.cpp`, `g3log.cpp` pushMessageToLogger) | Model/Errno | which calls of the standard library and the system set errno, and to what; evaluation order of C++17; arguments of printf-like macros from left to right |
| write errors announced by signals: SIGPIPE on the standard error stream, SIGXFSZ on a log file (`filesink.cpp` fileWrite, destructor; `crashhandler_unix.cpp` list of signals) | Model/WriteSignal | the outcome of every transfer and which signals end the process; a stream that has failed attempts no transfer |
| thread identification of entries (`logmessage.cpp` constructor, threadID) | Model/ThreadIds | which identification the system gives a new thread: any that no running thread has; fork is left out |
| changes of the format of entries through the handle of a sink (`sink.hpp` send, async; `filesink.cpp` overrideLogDetails) | Model/FormatChange | one sink, formats opaque; the two queues are those of Model/Worker and Model/Active |
| several workers and the handles of their sinks (`logworker.hpp` addSink, removeSink, removeAllSinks; `sinkhandle.hpp` sink) | Model/OtherWorker | each operation as a whole; the program keeps no shared pointer to a sink |
| build options of `crashhandler_windows.cpp` and the way of an exception through the handlers | Model/WinBuild | the order in which Windows asks vectored handlers, the program and the filter is trusted; vectored handlers of the program left out; report and reaction of the worker are one step |
| `localtime`, time zones (environment of time.cpp and filesinkhelper.ipp) | Spec/Calendar | Gregorian calendar counted second by second from 1970, proved equal to the formula of POSIX; no leap seconds; a zone is any function from time to the difference from UTC |
| pre-fatal hooks that use the library (`g3log.cpp: saveFatalMessage` with the hook as a program of LOG, `addSink`, `removeSink`, `removeAllSinks`, `shutDownLogging`, `~LogWorker`) | Model/HookUse | Model/Worker plus `g_logger_instance` as a flag and the thread of the event; the event is on the thread of a client; the hook neither throws nor raises an event (Model/Front); one worker, not initialised again |
| the same, with fatal statements, failed CHECKs, signals and exceptions in the destructors (`g3log.cpp: pushFatalMessageToLogger`, `crashhandler_unix.cpp: signalHandler`) | Model/SinkDtorFatal | Model/SinkDtor plus which threads sleep; an exception in a destructor is SIGABRT on that thread (std::terminate, C++ semantics), std::set_terminate has not been called, the pre-fatal hook does nothing, signals on other threads are left out |
| `exit` out of an illegal `initializeLogging`: g3log.cpp:55-83, 111-138, logworker.cpp:70-99 | Model/IllegalInit | the mutex, any number of threads and workers, each worker static or not; the sinks of a worker are one queue; locking a mutex twice on one thread waits for ever (what glibc does; by the standard undefined) |
| `initializeLogging` without memory, called again: g3log.cpp:55-83, crashhandler_unix.cpp:89-110 | Model/InitRetry | requests are numbered over all calls, any pattern may fail; `call_once` leaves its flag when the function throws (standard); one thread; hook and counter left out |
| programs of LOG statements | Model/Program, Model/ProgramThreads, Model/ProgramLocks, Model/ProgramFatal | composes Model/Levels, Model/Capture and Model/Front; ProgramThreads: on any number of threads, with Model/Worker; ProgramLocks: the same with Model/WorkerLocks, so that a hand-over is the single operations of `push`; ProgramFatal: with fatal statements, up to the end of the process |

### Evidence that the models are faithful

Verif/Conformance replays the unit tests of the repository on the models: every expectation of test_message.cpp, test_filechange.cpp, test_io.cpp,
test_fatal.cpp, test_signal.cpp and test_sink.cpp is an `example` with the values of the test, citing the test. These are tests, not proofs, and no property rests on them: they
show that the definitions compute what the authors of the code expect of it. Where a test asserts less than its name says, the replay states what the model gives
(the test of `DetailsWithThreadID` in test_message.cpp discards the result of its comparison; the model shows that the line lacks the thread id).

### What is not modelled

* The C++ memory model below sequential consistency, except in Model/Visibility and Model/Globals: there happens-before is derived from the lock, once, fork, join and future operations. The absence of data races in the queues is proved (C88, C89), and for the global variables it is determined exactly which functions race (C90), so that sequential consistency is no assumption for programs without such calls. The data race of LOG against shut down (C14) is shown by interleaving of whole accesses.
* Sizes: `size_t` counters do not overflow (that of the entries of a file sink may, Model/WriteCounter; the message size of `capturef` and its conversion to `int` are modelled); time points are unbounded integers.
* Allocation failure outside Model/Resources, Model/FatalResources and Model/InitRetry (inside the formatting of messages and the stack dump these are one request each), read errors.
* The library functions behind `put_time` on Windows (what each conversion yields); `stlpatch_future.hpp` (only for MSVC up to 2013, which cannot compile the rest of the library), CMake options that do not reach the code (packaging, tests, kind of library).
* Localisation: the C locale is assumed except in Model/Locale, which says what other locales change.
* Text on stderr is modelled for the file sink (Model/FileDiag), for signal handlers (Model/SignalDiag), for workers without sinks, for the fatal paths (C48, C53, C55) and for the warnings of the front end; not the text of a failed `assert`, of `std::terminate`, and of the `perror` at logworker.cpp:67, which is reached only on Windows.

## How the parts fit together

The queue (Model/Queue) is proved to behave like an atomic FIFO (C15, C16). Model/ActiveLocks puts the active object on that queue, lock by lock, and is proved to refine Model/Active (C68). Model/Active uses this atomic FIFO and is proved to run all tasks in order
(C17). Model/Worker uses FIFO queues served by one thread each; Model/WorkerLocks replaces them by the queues with their locks and is proved to refine Model/Worker (C93). Model/Future takes the execution of one task as one step.
Model/FileSink is sequential: C51 combines it with the worker, whose sink threads execute one task at a time.
C98 does the same with calls through the handle of the sink: the tasks that the thread of the sink executes are the operations of the file sink.
Model/ExternalFiles puts the sink of Model/FileSink on files that have numbers and can have several names or none; C123_trace and C123_same tie it to Model/FileSink.
Model/Nested puts the streams of Model/Statement on a stack for each thread (C127_same). Model/Unload agrees with the front end in what a message consists of and adds the memory that it came from. The headers of C129 are read off the layout that C40 proves of Model/FileSink (forget_run in Props/Headers). Model/HandlerLog without signals is Model/SignalLocks (hl_plain in Props/HandlerLog).
Model/SignalMask and Model/StackRoom repeat the end of a fatal event of Model/FatalExit for the questions which thread receives a signal and whether there is room to handle it; C124_unblocked proves that the former does what Model/FatalExit does as long as nothing is blocked.
The front end (Model/Front) hands messages to `save` and `fatal` of the worker. Model/HookCrash agrees with Model/Front where no hook crashes (C121_same).

The worker proof works with ghost variables: `sub` (all tasks handed to the worker) and `done` (what a sink has executed). The main invariant
(Props/Worker*) says that what a sink has got and will get is the sequential specification `Spec.Worker` applied to the tasks. Liveness (Props/WorkerLive)
uses a measure that decreases with every internal step.

## Findings: where the code does not do what its users expect

Each is proved (`_negation` theorem); none can be seen by testing one example with default settings.

* **C03** (Destroying the LogWorker flushes everything logged before). False for a sink that a client keeps alive through SinkHandle::sink(): the destructor returns before that sink has processed its messages (C03_negation). Proved for every other sink. C03_exact: in every case what a sink has not processed of its due when the destructor returns is what its thread is at and what is in its queue; it gets nothing else later, and can still process that (C03_rest).
* **C04** (removeSink is synchronous and final). False for a sink that a client keeps alive (C04_negation): the call returns before the sink has processed its messages. Proved otherwise, and in every case the sink gets nothing that was logged after the call. C04_exact: in every case what it has processed and what it is still at are what was due before the call, at every later moment; it can still process the rest (C04_rest).
* **C05** (removeAllSinks is synchronous and final). As C04 (C05_negation). C05_exact, C05_rest: exactly as C04_exact, C04_rest.
* **C07** (A fatal event flushes all earlier messages before the process dies). False for a sink that a client keeps alive (C07_negation): the process ends with its messages unprocessed. Proved for every other sink. C07_exact: what is lost for a sink when the process ends is exactly what its thread is at and what is in its queue, and then a client keeps it alive.
* **C14** (LOG racing with shutdown never touches a missing worker). False: LOG reads the worker pointer twice without the mutex, so a shut-down in between gives a null dereference and a destruction a use after free (C14_negation). Proved for schedules where logging is shut down only while no LOG call is in progress (C14_no_fault_partial); C14_exact says for every schedule which calls touch a missing worker, C14_over which ones end without harm. Whole accesses interleave; the data race itself is outside the model.
* **C22** (setHighest enables exactly the registered levels at or above the threshold). False in general: a LOG at an unregistered level leaves an entry carrying the inner INFO value behind, so a later setHighest leaves INFO enabled and the logged level disabled (C22_negation). Proved for every history that logs at registered levels only; exact behaviour for all histories in C60_exact.
* **C23** (Asking whether a level is enabled does not change the registry). False in general: logLevel inserts a default entry (C23_negation). Proved for registered levels; for an unregistered one the answer is still false (C23_query_unregistered).
* **C25** (CHECK cannot be disabled). False for integer conditions other than 0 and 1: CHECK(2) fires because the macro compares true == (expression) (C25_negation). Proved for boolean conditions; C25_exact gives the exact condition.
* **C29** (Copies of a message are complete and independent). Copy and move are complete. Assignment is not: file_path and the stored formatter are not copied (C29_negation); all other fields are (C29_assign_partial).
* **C30** (Formatter passed to toString / set on the sink is the one used). toString(f) uses f; the claim for overrideLogDetailsFunc + toString() is false (C30_negation). FileSink: C30_sink_formatter.
* **C33** (Formatting never fails, for any time point). False before 1970 when the fraction is non-zero: length_error, or a minus sign among the digits (C33_negation, C33_before_epoch). C33_iff: formatting succeeds exactly at or after the epoch, or before it when the truncated fraction has fewer digits than the unit. C33_right_iff: the result is the fixed-width number exactly at or after the epoch, or when the fraction is zero.
* **C35** (printf-style messages are complete or marked as truncated). False at one boundary: a text of exactly the buffer size loses its last character without the truncation mark (C35_negation, C35_boundary); C35_iff: this is the only case. Sizes above INT_MAX narrow to an int (C35_setMax_negation); C35_sizes gives the outcome for every size given to setMaxMessageSize. vsnprintf is trusted to behave as in the C standard.
* **C37** (The log file is placed in the requested directory). False for directories made only of slashes, backslashes and spaces: "/" becomes a relative path (C37_negation). C37_iff: exactly those directories are not respected; C37_cases and C37_blank give the result for every directory.
* **C41** (Entries logged before a successful changeLogFile are in the old file). False for flush intervals above 1 (C41_negation); proved for interval 1; C41_exact says exactly which entries stay in the old files for every interval.
* **C42** (changeLogFile never destroys existing log content). False when the change asks for the name in use: the file is truncated and the old text lost (C42_negation, general form C42_same_name); also when it asks for the name of an earlier file (C42_back_negation). C42_reuse_exact: the content of the whole file system after every sequence of operations that may use names again, as long as no change asks for the very name in use. C42_kept_iff: a change of file keeps everything if and only if it fails or the file it asks for has nothing in it (or, for the file in use, nothing but NULs on disk).
* **C44** (Choosing the signal set before initializeLogging is safe). False when overrideSetupSignals is called before initializeLogging: handlers are saved twice, so the restored disposition is the library handler again (C44_negation, and its two effects C44_negation_signal, C44_negation_abort). C44_order_partial is the orderly case. C44_exact gives the end of a fatal event after any calls in any order: it is the right one exactly if the handlers were never installed over themselves for that signal, and C44_one_init says when that is.
* **C48** (A fatal event before initialisation is reported and ends the process with its signal). False in a program that has neither initialised logging nor set a hook: std::bad_function_call (C48_negation, for every such history; C48_lost and C48_second say what follows if the program survives it). Proved when a hook exists and raises no fatal event (C48_report_partial). C48_exact gives the outcome for every history without initialisation, C48_iff the exact condition.
* **C49** (Only recursive crashes are labelled recursive). False: a second, unrelated fatal event is flagged, and so is an event whose own hook raised one (C49_negation). C49_exact says for every history which messages are flagged; the intended half is C49_first_partial and C47_recursion_marked.
* **C61** (An escaped percent sign in a time format survives). False: %%f is torn apart by the fraction replacement (C61_negation). C61_exact: for every format and every time at or after the epoch what strftime is given is right iff no escaped percent sign, reading from left to right, stands directly before the letter f.
* **C62** (A fatal event ends the process). False for an event raised on the thread of a sink (by code called from a sink callback): the worker then joins that thread, which waits for ever (C62_hangs for every such history, C62_negation for a concrete one). False too for a fatal signal that is delivered to the worker thread: it sleeps in its own handler and nobody serves its queue any more (C62_worker_hangs, C62_worker_negation). Proved for events on all other threads when no sink thread is blocked that way (C62_ends_partial). C62_exact: for every history, when nothing more can happen the process has ended, or the worker joins the thread of a sink that sleeps in its own fatal event; C62_for_ever: the latter never changes.
* **C63** (Windows: a thread that logs has its fatal signals handled). False after the handlers have been put back once: the thread-local flag stays set and a later LOG call installs nothing (C63_negation). Proved for all histories in which nothing was put back. C63_exact: for every history the action of every signal on every thread.
* **C64** (Windows: restoring undoes the installation). False if installCrashHandler is called twice, for instance by the program and by initializeLogging (C64_negation). Proved for one installation. C64_exact: for any number of installations and restorations which filter and how many vectored handlers remain.
* **C65** (Windows: the stack walk starts at the crash). False on 32-bit x86, where one field is assigned three times and the other two stay 0 (C65_negation). Proved for the other processors.
* **C66** (Windows: only recursive dumps are labelled recursive). False: the counter is never decremented, so the third dump of a thread is always replaced by the notice (C66_negation); C66_exact says what each dump is.
* **C69** (A fatal signal is recorded wherever it hits a thread). False when the signal hits the thread while it owns the mutex of the queue: the handler then blocks on the same mutex, the fatal message never enters the queue, nothing is taken out of it any more and every other thread that logs blocks too (C69_lock_held for all histories, C69_negation for a concrete one). Proved when the mutex is not owned by the interrupted thread, which must not be the worker thread.
* **C73** (Windows: printf-style messages are complete or marked as truncated). False for every text that does not fit (C73_negation): vsnprintf_s returns -1 when it truncates, so the code takes the failure branch and the whole text is replaced by the notice about a failure to parse; nothing of it is kept (C73_lost). C73_exact covers every text.
* **C74** (Simultaneous fatal events are reported like single ones). False in four ways: the hook can run on several threads (C74_hook_twice), a message can be handed over before the hook has run (C74_hook_late), both of two independent events can be labelled recursive and the hook blamed (C74_label), and copying the hook without its mutex while another thread assigns to it is undefined behaviour (C74_negation). Proved for every interleaving: the content of the messages, none twice, at most one without warning, no thread runs the hook twice, it has run when all events are over, late events do not run it, nobody is blocked. C74_exact gives, for every schedule, whether it is possible, whether it is undefined behaviour, who runs the hook and every message with its text; C74_blame_iff says exactly which messages are labelled recursive.
* **C75** (A message logged while another thread initialises logging is neither lost nor harmful). False in three ways: a message stored after initializeLogging has looked for one is never delivered though everything ends normally (C75_negation), the storing thread can dereference the pointer that initializeLogging has just emptied (C75_null), and it can rewrite a text that the background thread is reading or has destroyed (C75_freed). Proved for every schedule: no message is handed over twice (C75_once_partial), what was handed over stays so (C75_kept_partial), a LOG that begins when the logger is set is safe and delivered unaltered (C75_after_partial). Proved when initializeLogging and LOG do not overlap: nothing faulty (C75_orderly_safe_partial), the first early message is delivered first and marked, all later ones unaltered (C75_orderly_first_partial, C75_orderly_none_partial).
* **C76** (A time stamp is complete for every time format). False: expansions of 1024 or more characters come out unexpanded in release builds and end the process in debug builds (C76_long), and an empty format ends a debug build (C76_negation). C76_exact gives the outcome for every format, C76_complete_partial the positive part (POSIX branch of put_time). On Windows it holds for every length, and the process ends only for conversions the run-time system does not know (C76_windows); C76_platforms compares the platforms.
* **C77** (Levels can be switched and listed while other threads log). False: LOG at a level that was never registered inserts into the shared map and races with any other call, even another LOG (C77_negation); switching the same level on two threads, or switching while another thread lists the levels, races for the name stored with the level although the status itself is atomic (C77_negation_switch). C77_exact says for every pair of calls whether it can race. Proved for any number of threads: no race among compatible calls (C77_no_race_partial), none between LOG at registered levels and one thread that switches levels (C77_log_partial), LOG undisturbed by switching of other levels (C77_undisturbed_partial), one switching thread has the sequential effect (C77_one_changer_partial). C77_alone and C77_getAll_alone tie the access-by-access programs to Verif.Model.Levels.
* **C78** (File sinks do not disturb each other). False for two sinks with the same prefix, id and directory that are built within one second: they get the same file name, the second empties the file (C78_emptied, for every history) and the messages of the first are gone (C78_negation, for every message). This also concerns a program restarted within a second. Proved whenever no other sink uses the file name: the sink behaves as if alone (C78_independent_partial), its file has the content of C38 (C78_content_partial); C78_same_name says when names coincide, C78_other_files that nothing else is touched.
* **C79** (A second fatal event does not cut off the report of the first). Proved for every schedule with a single fatal event, for every schedule in which all fatal events are signals, and generally whenever at most one thread at a time is past the handler's counter. False otherwise: bgFatal clears the logger pointer before it flushes, so a LOG(FATAL)/CHECK on a second thread (or a signal, if the first event was a statement) finds no logger, restores the handlers and ends the process at once; C79_negation shows that whatever has been logged before, nothing of it need have reached a sink, and C79_negation_null that the second thread may call through a null pointer.
* **C80** (A fatal statement never returns). Proved where raising a signal ends the process and fatal events come one at a time. In general a fatal statement returns only while some thread is inside exit() (C80_exiting). False where raising does not end the process (PID 1, ignored signal): LOG(FATAL) returns and the program goes on logging during exit() (C80_negation); false also where it does, if a signal hits a second thread while the first event is being flushed (C80_negation_race); exit() can run on two threads at once (C80_negation_exit).
* **C81** (A write error costs no more than the entries concerned). False for "once writing works again": the stream keeps its error flag, so after one failed transfer nothing logged later has any influence on any file until changeLogFile succeeds (C81_deaf, C81_negation gives the exact final file), and no call reports it (C81_silent). Proved for all histories: without errors nothing changes (C81_no_error, C81_no_error_end), what is in a file stays there and other files are untouched (C81_kept), a successful changeLogFile makes everything work again (C81_recover).
* **C82** (A file sink that cannot create its file is reported or harmless). False in release builds: the check is an assertion, the constructor returns normally with a null stream and every life of such a sink ends in undefined behaviour, at the latest in its destructor (C82_negation); C82_until_partial says how long it goes well, C82_write what writing does in every state. C82_constructor compares the constructors of both builds; C82_opened_partial: sinks that did open a file behave as in the debug build. Debug builds end in the assertion (C38_constructor).
* **C83** (A sink that hangs holds up nobody else). The code violates the full statement: C83_negation (sink 0 hangs in a callback and is being removed; until the callback returns no message logged later reaches sink 1). C83_loggers: logging never waits. C83_others_partial: without a request to remove a hanging sink, to remove all sinks, and without a fatal event, every other sink gets everything; C83_exact: in every case either that or the worker waits for a hanging sink; C83_reached: the point is reached within a bounded number of steps; C83_held_up: while the worker waits for a hanging sink no sink is sent anything.
* **C85** (exit() ends the process and keeps the log). Violated in two ways. (1) C85_negation, C85_never: static LogWorker and a process that survives the signal (the case the comment at crashhandler_unix.cpp:237-239 wants to handle): exit() runs on the worker thread, destroys the LogWorker there, and waits for a task of the very same thread; the process hangs for ever. C85_exact: this is the only way to hang. (2) C85_negation_lost: exit() does not destroy a LogWorker that main owns, messages logged before are lost. Proved: C85_static_exit (static LogWorker, exit by the program: everything logged before is with the sinks), C85_fatal_end (after a fatal event exactly everything up to it is with the sinks, the number is right), C85_prefix, C85_ends_partial (the process ends in all other cases).
* **C86** (An exception thrown inside a logging statement reaches the caller). Proved for every level that is not fatal, for throwing conditions, printf arguments and streams, and for fatal levels with the default exit handler (the fatal event takes its course). The full statement fails for fatal levels with an exit handler that throws, as installed with setFatalExitHandler in unit tests: the second exception leaves ~LogCapture during unwinding and the program is terminated (C86_negation).
* **C87** (Everything streamed into a statement is in its message). The exact text is proved: everything up to and including the first operand that leaves the stream failed. The full statement fails: after such an operand (for example << other.rdbuf() of an empty stream, which sets failbit) everything else in the statement is dropped without a notice (C87_negation), since the capture writes into one ostringstream whose state is never looked at.
* **C90** (which functions may be called at the same time). The full statement fails (C90_negation): two fatal events race on the hook, which saveFatalMessage copies without the mutex that protects its assignment; a fatal event races with setFatalPreLoggingHook and setFatalExitHandler; every LOG races with what the worker does after a fatal event of another thread (shutDownLogging writes the pointer that LOG reads without a lock). Proved instead: C90_exact, an exact table (Spec/Globals, 39 entries of variable and two functions): there is a program with a race between the two functions on the variable if and only if it is in the table, even if all atomic variables are taken to synchronise. C90_documented_partial: programs that set up before starting threads and tear down after joining them have no race if the functions the threads call are not forbidden together; C90_logging_partial: in particular LOG, LOGF and setFatalPreLoggingHook on any number of threads. Two calls of initializeLogging, or of overrideSetupSignals, do not race. C90_meaning: the values on which the functions decide are those that the events so far give. C90_calls: in every interleaving every thread does what its program says and every call goes, from beginning to end, one of the ways of a table of accesses (Props/GlobalsCalls); C90_calls_real: each of these ways is gone by some program.
* **C91** (A sink whose callback throws does not hang the process and costs the other sinks nothing). Violated. An exception calls std::terminate on the thread of the sink; the crash handler for SIGABRT, which runs on that thread, hands the worker a fatal message and waits there for the end of the process, while the worker, before ending the process, waits for that thread: the process hangs for ever (C91_hangs, C91_negation 1). If SIGABRT is not handled, or logging is being shut down (for instance because the callback throws for the fatal message itself), the process ends at once and the other sinks lose what they have not yet processed (C91_exact, C91_negation 2 and 3). True parts: C91_as_before, C91_prefix, C91_stops, and C91_others_partial: if the process hangs, the other sinks have got everything including the report, unless the worker is removing a sink that has thrown. C91_bounded, C91_rests: from every state all threads come to rest after a bounded number of steps, so that C91_others_reached_partial needs no assumption on the schedule.
* **C92** (With several threads, a fatal statement ends the program only after everything logged before is in the file). Violated. The worker begins bgFatal by clearing the pointer to the logger, which the threads of the program test and then use without any protection. (1) An ordinary LOG statement on another thread that has tested the pointer just before uses a null pointer: the process dies of that, and neither the lines logged before nor the report reach the file (C92_negation; only one thread has a fatal statement there). (2) A second fatal statement that finds the pointer cleared ends the process at once with its own signal, while the report of the first is still being written (C92_cut). (3) Two fatal statements on different threads are reported as a recursive crash of a hook although there is neither a recursion nor a hook (C92_label says exactly when). Proved for all schedules: if the worker ends the process, the file is as stated, with a note at most if another thread is in a fatal statement (C92_file_partial); the only premature ends are (1) and (2), with the exact situation in which they happen (C92_premature_partial), and with fatal statements in one thread only (1) remains, caused by an ordinary statement of another thread (C92_single_partial); and the end is reached if the threads of the program stay where they are (C92_ends_partial).
* **C94** (A sink may use the logger from its callbacks: it never waits for ever and the process is not ended by it). The code does not fulfil it. C94_negation_wait: a sink that waits for a call to itself hangs. C94_negation_remove: a sink that removes itself hangs, and so does the worker behind it. C94_negation_two: two sinks that call each other without waiting, while all sinks are removed, each become the last owner of the other and hang. C94_negation_terminate: a sink that calls itself without waiting, while it is removed, ends the process, because ~Active joins its own thread. C94_while_removed: any synchronous call from the callback of a sink that is just being removed hangs for ever. Proved positively: C94_refines and C94_prefix (order and completeness of what is delivered are not affected), C94_exact (a standstill is either rest or a circle of waiting threads) with C94_bounded and C94_reached, C94_terminates (exactly when the process is ended), C94_own (a sink is called or given up only by who holds it), and C94_ordered_partial with C94_delivers_partial: programs whose threads can be ranked so that they wait only upward are safe and everything is delivered. Missing for the full statement: nothing, since it is false.
* **C95** (What the file sink says on stderr is true and tells where the log is). The code does not fulfil it: C95_negation, an illegal prefix such as a+b is also reported as empty, because the constructor tests the emptied prefix once more (an empty prefix is reported twice). Proved: the exact text of a construction (C95_construction), when it is silent (C95_silent), that all other lines are true (C95_true_partial), the exact text of a whole life of a sink (C95_life), what stderr holds if an operation stops the program (C95_stopped) and when this happens (C95_stops), that the file named at the end is the one that ends with the shut down line (C95_location), and that the functions are otherwise those of C36 to C42 (C95_same). Missing for the full statement: nothing, since it is false.
* **C96** (A signal handler that the system refuses is reported under its own name). The code does not fulfil it. C96_negation_windows: on Windows every handler that cannot be taken back is reported as SIGABRT. C96_negation_one_line: refused restorations are written without line ends, so that several come out as one line. C96_negation_forgotten and C96_forgotten: a refused restoration uses up the saved action, later attempts do nothing and say nothing. C96_windows_once: a thread whose handlers were refused is not tried again. C96_negation_result: if the write fails, writeErrorMessage returns 2^64-1. Proved: which attempts every call makes, in which order, and the exact effect and text of each (C96_call, C96_history, C96_off), the same on Windows (C96_windows_install, C96_windows_restore), what writeErrorMessage does (C96_write, C96_result_partial), and agreement with the models of C43, C44, C63 and C64 (C96_same, C96_windows_same). Missing for the full statement: nothing, since it is false.
* **C97** (Windows: after an exception that the program handles itself, logging works as before). The code does not fulfil it. C97_negation and C97_lost: the exception detaches all sinks for good; what is logged later reaches none of them. C97_negation_fatal and C97_returns: after one exception has been dealt with, LOG(FATAL) returns to its caller at once. C97_negation_second: a second thread that raises an exception continues before its report is written. C97_sink_hangs: an exception in the callback of a sink that only the worker owns hangs the process. Proved: what every sink and stderr get, exactly (C97_prefix, C97_complete, C97_err with the specification C97_each, C97_detaches), when the process ends (C97_process), that the thread of the first exception waits for its report (C97_waits_partial), when a waiting thread continues (C97_raise, C97_released, C97_sink_released), and that without exceptions the worker is that of C01 to C08 (C97_same). Missing for the full statement: nothing, since it is false.
* **C98** (The log file may be changed while other threads log: no line is lost, doubled or torn, and it is in the file of its time). The last part is false. C98_negation: a thread logs and then asks for the change; the line is in the new file even if the sink flushes after every entry, because the call goes to the sink directly and the message through the queue of the worker. Proved: no line is lost, doubled or reordered over the files (C98_files, C98_fatal when a fatal event ends the process, C98_threads for programs with several threads that also switch levels), lines logged after the change are in the new file (C98_after), which lines are in the old ones, exactly (C98_before), and that all earlier lines are in the old file if the sink flushes after every entry and a synchronous call of the worker returned in between (C98_before_partial). C98_formats also has calls that change the format of the lines. Missing for the full statement: nothing, since it is false.
* **C100** (A message has the level that was tested). False: the macros write their level twice, once for the test and once for the message (C100_negation: a message of a level that is disabled all the time is logged, one of a level enabled all the time is not). C100_second says which evaluation decides what, C100_count how often the level is evaluated. C100_partial: levels with a fixed value, for which the statements are those of C24 and C25.
* **C101** (Static objects may log). False with the library linked statically: C101_negation (constructor; destructor after a regular shut down). C101_exact says exactly which programs run into undefined behaviour, C101_otherwise what the others do, C101_enough that LOG below FATAL needs only loglevels.cpp to come first, C101_constructor that it always needs it. C101_partial: library first (a shared library). C101_zero: what happens where the memory of objects not yet constructed is zero: LOG(INFO) counts as fatal and leaves by bad_function_call, without output.
* **C102** (A forked child can log, change sinks, end and crash as its parent could). False: the threads of worker and sinks do not exist in the child and nothing tells the library so. C102_nothing: no sink gets anything any more, the queue only grows. C102_calls: no synchronous call returns. C102_end: the destructor does not return and a fatal event does not end the process. C102_log: each LOG returns if nobody was inside the queue at the fork; C102_locked: otherwise not even the first. C102_negation: concrete parent and child. C102_partial: what works is to shut logging down in the child and initialise it with a new worker, without destroying the old one.
* **C103** (Without memory or threads each call does its job or throws and changes nothing, and the process survives). False: C103_negation has a handle from addSink for a sink that is not there, an exception from addSink although the sink is there and receives everything, half a text without notice, and the end of the process by std::terminate for a thread that cannot be started, memory missing on the thread of the worker or of a sink, in the destructor of the worker, and in a LOG whose argument throws. C103_create, C103_add, C103_remove, C103_removeAll, C103_destroy, C103_log: everything each call can do, whichever requests fail; LOG is all or nothing over the sinks. C103_*_one: which request leads to what. C103_no_leak holds fully: whatever fails, as long as the process lives no thread and no sink leaks and each sink is destroyed once. C103_partial: if no request fails every program does what it should.
* **C104** (An illegal initialisation ends the process with a failure status and keeps the log). False. initializeLogging calls exit while it holds the mutex that the destructor of a worker wants: with a static worker in use, or with a static worker and none in use, the process hangs for ever, and with it every thread that initialises, shuts down or destroys a worker (C104_hangs, C104_static, C104_negation). With a worker that is not static the process ends, but messages that the worker has not dealt with are lost (C104_negation). C104_exact: exactly when the process can end. C104_ends_partial: in these cases it does end, under all schedules. C104_status: the status, and the log of static workers is complete. C104_rule: which initialisations succeed.
* **C105** (An initializeLogging that throws for lack of memory can simply be called again). False. installSignalHandler installs the handler for a signal before it records the former disposition; if recording throws, the next call records g3log's own handler as the former one, also for all signals before it. A later fatal signal of these hangs the process for ever, LOG(FATAL) exits with a code instead of by SIGABRT (C105_exit, C105_negation). And the message logged before is moved out of its place before `save` asks for memory: if that throws, it is lost (C105_negation). C105_retry: exactly what holds after the first call that returns; C105_exact: it is as it should be exactly if no earlier call got as far as installing a handler; C105_one_request: closed form for one failing request; C105_memory_back: a call with memory returns; C105_throws: a call that throws puts no worker in use; C105_requests, C105_again: what a call asks for.
* **C106** (A call through a sink handle is made with the arguments of the time of the call). False for arrays (and for pointers and std::ref): std::bind keeps an array as a pointer, so `char name[]…; handle->call(&FileSink::changeLogFile, name)` uses the array when the thread of the sink comes to the call; by then it may have other content (C106_negation) or no longer exist, which is undefined behaviour (C106_negation_gone). Proved: with values the program behaves as if every call were made at once (C106_values_partial); what any call finds (C106_finds); exactly when this is what was there at the call (C106_exact); waiting for the future before touching the objects makes every call safe (C106_waiting); what the method can change (C106_fills); expired handles (C106_expired); after a use of an object that is gone the execution ends (C106_stops).
* **C107** (What g3log writes of itself does not depend on the program's locale). False for the full format and for the report of a fatal signal: thread id and process id go through a std::ostringstream, which uses the global locale, so that they read 12,345 with an English one (C107_negation_pid). The thread id is formatted by the thread of the sink: whether a message logged before std::locale::global has a punctuated id depends on which thread is faster (C107_negation). Proved: how numbers are punctuated, uniquely (C107_punctuated, C107_only), when they are not (C107_same), that the digits can be recovered (C107_digits); the default format never depends on the locale (C107_default_partial, C107_default_file_partial, C107_stamp_partial, C107_time); exactly when the full format and the signal report do (C107_full, C107_signal); frames of the stack (C107_dump); which locale is used (C107_when); a locale set before the first message is used for all of them (C107_early_partial).
* **C108** (A fatal statement ends the process also when memory is short). False: the destructor of the LogCapture may throw, so that without memory a fatal statement throws bad_alloc and a program that catches it goes on (C108_negation). If the memory is missing after the hook has been taken out, the hook is lost (it may never have been called), and the next fatal statement is labelled a recursive crash (C108_negation, C108_second). Without memory on the thread of the worker the process ends by std::terminate, without a report. Proved: for every set of failing requests what becomes of a fatal statement, exactly (C108_exact: the first request that fails and costs more than the end of a text decides); with memory it is as claimed (C108_partial); it never returns (C108_never_returns); if it throws, sinks, handles and logging are as before (C108_throws); nothing leaks (C108_no_leak).
* **C110** (The destructor of a sink may use the library). False: logging is shut down before ~LogWorker and bgFatal destroy the sinks, so what the destructors of sinks log then reaches no sink, not even those still attached, and only the first such entry of the process is printed on stderr (C110_negation, C110_lost); and a synchronous call in a destructor that runs on the worker thread waits for its own thread: it never returns, no sink gets anything any more, neither a fatal event nor the destructor of the worker comes to an end (C110_hangs, C110_add_negation). Proved: every run with such destructors is one of the worker with the entries logged until that point as requests, in order (C110_requests, C110_active); while the worker is in use the entry of a destructor is delivered (C110_partial); the destructor runs after the thread of the sink has ended, with all its messages processed and no reference left (C110_when); LOG in a destructor always comes back at once and touches nothing else (C110_log); without _bg synchronous calls return at once (C110_returns). On other threads a synchronous call in a destructor is the call of a client (C52).
* **C111** (Fatal events in the destructors of sinks). False: on the worker thread (removeSink, removeAllSinks) the event waits for its own thread: the process never ends, no sink gets the report or anything else any more (C111_hangs, C111_hang_negation); the same happens to a process that is ending by a signal when the destructor of a sink throws then (C111_signal_negation); and while the worker is being destroyed, or busy with a fatal message, a fatal statement in a destructor ends the process at once, with entries unprocessed in the queues of other sinks and the report only on stderr (C111_negation). Proved: exactly what such an event does in each case (C111_exact); for the worker the program is one with some of these events as fatal messages of clients (C111_requests, so C110 applies); the thread that raised it does nothing more, its sink is never destroyed (C111_thread); when the event is on the thread of a client and the worker thread and the sink threads are not held up, the process ends after a bounded number of steps and the claim holds for all sinks that no client uses (C111_partial).
* **C112** (A pre-fatal hook may use the library). False: a hook that cleans up by destroying the worker ends logging before the report is made: the sinks that were attached at the event get neither the report nor what the hook logs afterwards, the report is on stderr only (C112_negation); a hook that shuts logging down makes the process end at once, so that even entries logged before the event are lost (C112_shutdown_negation). Proved: the hook runs once, completely and in order before the report (C112_once) and waits for its calls and for the destructor (C112_waits, C112_destroyed); for the worker it is a client like others, and what is given to it, by the hook or by others, is exactly what was given while logging was active (C112_requests, C112_active), what the others do meanwhile is restricted only as said there (C112_others); whatever the hook does, if no sink thread sleeps, there is no endless run without new input and at its end the process has ended (C112_finite, C112_ends), so no hook on the thread of a client hangs; hooks that log, add and remove sinks lose nothing: the sinks that no client uses have processed everything due to them before the report, and the report (C112_partial); when logging is off at the end of the hook the report is only on stderr, and if the worker was destroyed everything handed over before has been processed (C112_lost).
* **C113** (Entries of the log are in the order of their time stamps). False: the stamp is read before the entry is handed over, so entries of two threads may be inverted (C113_negation); on a single thread what a pre-fatal hook logs comes before the fatal entry although its stamps are later (C113_hook_negation); and the clock may be set back (C113_clock_negation). Proved for a clock that is not set: entries of one thread are in the order of their stamps, except for those of the hook of the fatal event that follows them (C113_thread_partial), without exception if no hook is set (C113_no_hook), and so every sink receives them (C113_sink); entries are out of order only if their statements overlap (C113_overlap), and a statement that is over before another one ends comes first with the earlier stamp (C113_real_time). A fatal entry is the last of its thread (C113_fatal_last). The log is determined by the schedule: which entries are in it (C113_all), in which order (C113_order), that each comes from one statement of its thread with the clock read at its end (C113_from, C113_whole), when the process ends (C113_end).
* **C114** (Changing the handled signals leaves no gap). False in two ways. overrideSetupSignals gives everything back before it takes anything: there always is a moment at which no signal at all is handled, and a crash then kills the process with nothing logged (C114_negation). And sigaction takes effect before its old action is noted: every signal of the new set has a moment at which its arrival on the thread inside the call leaves the process hanging for ever, since the exit path then raises the signal into g3log's own handler (C114_hang_negation). Exactly: which calls of sigaction are made in which order (C114_order), what the actions of all signals are at every moment (C114_actions), that the call comes to its end in the state of the call as one step, C43 (C114_done), and how the process ends for every handled signal at every moment (C114_hit: the second window is the only exception). C114_partial: every signal is always handled or has its original action, and signals in neither set keep theirs throughout.
* **C115** (Windows: an exception is reported once if it is fatal, and a fatal signal always, in every build). False in four ways. Switching fatal signal handling off still installs the exception handlers and only disables their removal: an exception of the table is then reported twice and the handlers stay for good (C115_negation). An exception of the table that the program handles is reported as fatal, and logging ends (C115_caught_negation). Installed twice (C64), it is reported twice in the usual build (C115_twice_negation). In a build with DEBUG_BREAK_AT_FATAL_SIGNAL and no debugger the breakpoint comes before the message is handed over: the log gets a report of a breakpoint and nothing of the signal (C115_break_negation). C115_exact: for every build which reports there are and which handlers remain; C115_once_partial: with signal handling, installed once, the property holds except for handled exceptions of the table; C115_signal: signals without the breakpoint or with a debugger; C115_signals, C115_default: the other functions in the other builds. Trusted: the order in which Windows asks the handlers.
* **C116** (A time stamp identifies the moment, and the log file of an earlier run is not overwritten). False where clocks are put back (end of summer time): every moment of the hour before is followed one hour later by one with the very same stamp, and the order is inverted (C116_negation, for every zone and every change); a program that is started again an hour after its earlier start then empties the log file of the earlier run (C116_restart_negation). C116_exact: for any two moments in any zone, order and equality of the stamps are those of what the clocks show, to the microsecond; C116_decode: the stamp and the difference to UTC give the moment back; C116_unchanged_partial, C116_forward_partial: the property holds while clocks are not changed or are put forward; C116_names, C116_restart: exactly when two log files have the same name and when a restart empties the old file (the same second restart is included). C116_calendar: the calendar used is that of POSIX. Trusted: localtime follows the calendar and the rule of the zone.
* **C117** (The entries can be read back from a log file, and no message can pass for another entry). False for texts with the end of a line, which the library writes as they are: a message goes on with any text whatever (C117_any_text), for every sequence of entries there is one message that prints the same (C117_forge), and the whole file is that of the other program (C117_negation; all sinks, intervals and sequences). Who can choose a text that is logged can forge entries. C117_lines: exactly how many lines an entry takes. C117_read_partial: with fields and texts without ends of lines (and fields without the separators) the independent reader Spec.readLog gives back exactly the entries. Only ordinary levels and the default format and header.
* **C118** (Messages that wait take a bounded amount of memory and logging never waits for a sink). Half true: C118_never_waits: at every moment of the life of the worker a message is taken at once, however many wait. C118_account, C118_kept: exactly which messages are in memory; nothing that is due to a sink is given up. But the queues have no limit: C118_negation: for every r there is an execution in which all threads work all the time (C118_rounds) and r messages wait, for the sink if the sink is slower than the program logs, in the worker if the worker is. C118_burst_partial: in any part of any execution the backlog of a sink grows by at most the messages that come in less those it receives, so that bursts of limited length need limited memory; with C52 everything drains once the program stops logging.
* **C119** (Logging can be shut down and started again, and the new life is like the first one of a new process). True but for three things. C119_again_partial: after every earlier life, with fatal events or without, all that can be seen and the way the program ends are those of a new process in which the same exit handler is set and the stack trace of the first fatal event is known; C119_like_new: without an earlier fatal event, just those of a new process. Not like new are: C119_negation: the warning about a recursive crash shows the stack trace of a fatal event of the earlier life; C119_install_once: the signal handlers are installed by the first initialisation of the process only, a later one does not put them back; C119_gap, exactly: messages logged between two lives reach no worker, and at most the first of them is shown on stderr, namely if no message has found no logger before (before the very first initialisation the first message is kept and shown, C10).
* **C121** (A crash inside a pre-fatal hook is reported as a recursive crash, and the process ends). C121_statement_partial: it holds when the first event is LOG(FATAL) or CHECK and the hook crashes by anything that g3log handles. C121_negation: it is false when the first event is a signal. A hook that crashes by the same signal has the process killed by the kernel without any report (the signal is blocked in its own handler); one that crashes by another handled signal, or calls abort, leaves the thread asleep for ever, nothing reported and the process not ended, because shouldDoExit lets only one signal through. C121_signal_iff: exactly when a signal is reported. C121_exact: end, logs and report for every hook that sets no hook. C121_deaf: after the first fatal signal no thread reacts to a handled signal any more. C121_documented_hook: the hook recommended for Linux, raise(SIGTRAP), ends the process before anything is reported. C121_user_handler: the same with an exit handler set by the user that returns or throws. C121_same: agreement with the model behind C47 for hooks without signals.
* **C122** (A fatal signal is reported wherever it hits the program, whatever locks are held then). C122_exact: the handler gets through in every schedule if and only if the thread is not just then inside the heap, inside setFatalPreLoggingHook or inside an operation of the queue of the worker. C122_negation: a crash inside malloc or free, as after damage to the heap, is never reported; the process hangs and every thread that needs memory with it. C122_lost and C122_through_partial are the two halves for arbitrary locks and programs, C122_bounded and C122_reached: schedules end. C122_own_lock: locks of the program itself do no harm, also when it logs under them. Missing in the partial theorem: threads hit while they own one of these locks, for which the claim is false. C69 has the queue down to its single operations.
* **C123** (A log file that other programs rename, remove, empty or append to while the program logs loses no entry). C123_renamed_partial: as long as nobody writes to the log file itself, the complete log is in it wherever it has been moved or linked to; C123_moved is the usual rotation by mv: everything goes on under the new name and the old name stays without a file. C123_exact and C123_touched say exactly what is in a file that others have changed: the file is opened without append mode, so the sink goes on at its own place. C123_emptied, C123_nul: a file that is emptied (copytruncate) starts with as many NULs as there had been characters. C123_extended: lines that others append are overwritten. C123_removed, C123_negation: after rm nothing the sink writes can be read under any name, and C123_silent: no call tells. C123_reopened: a successful changeLogFile completes the old file wherever it is and starts a proper new one. C123_visible: the sink touches no other file and no name. C123_names, C123_others: what the operations of others do. C123_trace, C123_trace_end, C123_same: the operations on the stream are those of Model/FileSink, and if nobody else is active, also with changes of the file, every name shows what Model/FileSink says. Missing in the partial theorem: removed, emptied, replaced and extended files, for which the claim is false.
* **C124** (A program may block signals in its threads: a fatal event is reported and ends the process with its signal). C124_statement_partial: an event on a thread of the program that does not block the signal is reported and kills the process by the signal if the worker does not block it. C124_setup: after any history without fatal events the worker has the signal mask that the thread which created it had at that moment. C124_exact: the end of every event on a thread of the program: killed by the signal, or exit with the number of the signal as status if the worker blocks it, within five steps of the worker. C124_hangs: a signal that the kernel delivers to the worker or to a sink never ends the process, because the handler sleeps in the thread that should do the work. C124_outside: if all threads of the library block the signal, it is always reported, but ends by exit. C124_dilemma: there are no masks for which a signal from outside is sure to be reported and to kill the process. C124_late_mask: blocking SIGTERM in the program after initializeLogging leaves the worker as the only possible receiver. C124_fault: a fault in a thread that blocks its signal is not reported. C124_waits, C124_own, C124_once: a blocked signal waits, for any thread or for its own, and is then taken once. C124_early: nothing is reported before initializeLogging. C124_between: a signal that comes while a fatal statement is dealt with ends the process by exit before the sinks have been waited for; C124_between_restored: one that comes after the handlers have been restored kills the process in place of the signal that was reported. C124_negation: a program that blocks SIGABRT before initializeLogging ends by exit(6) at a fatal statement. Missing in the partial theorem: events on threads of the library and signals that the worker or the thread blocks, for which the claim is false. C124_unblocked: as long as nothing is blocked, the model does what Model/FatalExit does, with the same fatal events; C124_unblocked_single draws from it that a single event can only end the process with its own number. C124_can: which steps are possible; C124_masks: what every step does to every mask.
* **C125** (A crash is reported however deep the calls are, a stack overflow included). C125_statement_partial: a crash or a fatal statement is reported, with everything logged before, if all that was called had room on the stack and there is room for the handler. C125_exact: otherwise the process is killed without a report at the first operation without room, and the log is any prefix of what had been sent. C125_runs: histories with room that do not crash. C125_recursion: recursion without end is never reported, whatever the sizes. C125_altstack: an alternate stack set by the program makes no difference, because the handler is installed without SA_ONSTACK; C125_onstack and C125_onstack_overflow: with that flag and an alternate stack every crash would be reported as itself, and any call or statement without room as SIGSEGV. C125_larger: a larger stack never hurts. C125_negation: with room for the function but not for the handler nothing is reported. Missing in the partial theorem: crashes without room for the handler, for which the claim is false.
* **C128** (A program may log in its own signal handlers). Violated: C128_negation: if the signal comes while its thread is inside the heap or inside the hand-over of a LOG statement of its own, handler and thread wait for ever in every schedule, and so does every other thread that still needs that lock. C128_exact: for a signal at any moment of any schedule, everything comes to its end in every schedule if and only if the thread is not just then inside the heap or inside an operation of the queue. C128_statement_partial: any number of signals, nested ones included, on any threads, at other moments than these do no harm. C128_through: the same for any locks taken in order and any handlers that take only locks above the others. C128_bounded, C128_reached: between signals only boundedly many steps are possible and the threads come to rest. C128_lost, C128_others: the same loss for any locks and programs, also with signals on other threads.
* **C129** (Every log file begins with its header). Violated: C129_negation and C129_later: changeLogFile writes the header to the file that is left and not to the new one, which begins with a note about the change and has no header at all if anything was logged before. C129_exact: for every history exactly which headers each file has (one from the very first message, one at its end from each change), with which time and text, and that a file begins with a header if and only if it is the first one and no change failed before the first message. C129_statement_partial: without changes of the file the log begins with its header, has only this one, and its text is the one in force at the first message. Missing in the partial theorem: files after a change, for which the claim is false.
* **C130** (A time stamp is in the time zone of its statement). Violated: C130_negation (TZ is set while a message waits: its stamp is in the new zone, whatever localtime_r does), C130_sinks_negation (one statement has different stamps in two sinks), C130_stale_negation (where localtime_r does not look at TZ, as in glibc, the first stamp after the change is still in the old zone, although the statement came after the change; the stamps of a file then go back while the times do not). C130_exact: for every schedule the stamp of every write: the time of the statement, in the zone that is in force when the sink formats. C130_can: which writes are possible; C130_from_epoch: for times from 1970 on a sink can always go on. C130_default: in the default format the stamp shows date and time in that zone and the microseconds of the statement. C130_settles: after TZ has been set at most one stamp of the whole process is made in an earlier zone. C130_fixed: all stamps are in the zone of a program that does not set TZ. C130_statement_partial: the property if TZ is not set between the statement and the formatting and the C library has had a look at TZ since. Missing in the partial theorem: messages that wait during a change, for which the claim is false.
* **C131** (A time stamp shows what the system clock showed at its statement). Violated: C131_negation (where high_resolution_clock is a steady clock, setting the system clock after the first stamp makes all later stamps wrong by that amount), C131_between_negation (where it is the system clock, setting it between the two readings of the statics makes all stamps of the process wrong). C131_exact: for every schedule every stamp, in terms of what the clocks showed at the statement and at the two readings, in whole ticks; C131_stamps the same for the stamps found. C131_system, C131_steady: exactly by how much stamps are wrong with each kind of clock. C131_steady_order: with a steady clock stamps are in the order of the statements whatever happens to the system clock; with the system clock they are not (C131_order_negation). C131_unset: while the clock is not set all stamps are late by the time between the two readings. C131_can: exactly which steps are possible (the statics are read once, when the first message is formatted and not at the start of the program as the comment in time.hpp says). C131_statement_partial: the property if no time passes between the readings and the clock is not set (or, with the system clock, not between them). Missing in the partial theorem: clocks that are set, for which the claim is false.
* **C132** (A log file that the sink has left is released). Violated: C132_negation: log files are opened without close-on-exec, so a program started before a change of the file keeps the old one open; C132_both: one that is started during a change keeps both files. C132_exact: for every schedule exactly who has a log file open: the process as long as the sink uses the file, and every program that was started meanwhile as long as it runs. C132_kept: such a program keeps the file open until it ends, whatever the sinks do. C132_can: exactly which steps are possible. C132_statement_partial: the property if no sink has left a file since the start of a program that still runs. Missing in the partial theorem: programs that still run, for which the claim is false. Trusted: std::ofstream::open does not set close-on-exec (libstdc++, libc++).
* **C133** (A logging statement shows and leaves errno as the program set it). Violated, as errno is not saved anywhere: C133_dump_negation: a fatal statement makes its stack dump before the operands are evaluated, so that CHECK(fd >= 0) << strerror(errno) may tell a wrong reason; C133_insert_negation: a later operand of << sees what the insertion of an earlier one did to errno; C133_report_negation: the report of the first message before initialisation changes errno if stderr cannot be written. C133_exact: for every program exactly what all operands see, and errno after all statements: the value set last in the order of the evaluation. C133_can: exactly which steps are possible. C133_own: which values count as set by the program. C133_condition: operands see what the condition of a CHECK or LOG_IF has set. C133_printf: arguments of a printf-like statement are not exposed to formatting, saving and reporting. C133_statement_partial: the property if the calls inside the library leave errno alone.
* **C134** (A broken pipe or a full quota costs only the entries concerned). Violated: C134_negation: the exit message of a file sink that is destroyed goes to the standard error stream; when that is a pipe whose reader has gone, SIGPIPE ends the process and entries that wait in the other sinks are lost; C134_limit_negation: the same with SIGXFSZ when one log file reaches the limit of the size of files. C134_exact: for every schedule exactly what is in each file and which signal has ended the process. C134_can: exactly which steps are possible. C134_kept: a sink destroyed without errors of its own has all its entries in its file, also when a signal ends the process later. C134_once: after a failed exit message no further one can end the process. C134_statement_partial: the property in programs that ignore these signals.
* **C135** (The thread identification of an entry tells which thread logged it). The first half is proved, C135_caller: the identification is the one of the calling thread at the time of the statement. The second half is violated, C135_negation: the system may give the identification of a thread that has ended to a new one. C135_apart: that is the only way: entries of different threads with the same identification are separated by the end of the first thread and the later start of the second. C135_exact: exactly which entries there are. C135_can: exactly which steps are possible. C135_statement_partial: the property as long as no thread that has logged has ended.
* **C136** (A change of the format applies to the entries logged after it). Violated: C136_negation: a call through the handle goes straight into the queue of the sink and overtakes messages that wait for the worker, so that entries logged before the call have the new format. C136_exact: for every schedule exactly which entries are written and with which format: the one called for last when the message reached the sink. C136_later: an entry never has a format older than its statement. C136_can: exactly which steps are possible. C136_statement_partial: the property if no message waits for the worker at the calls.
* **C137** (removeSink removes the sink of its handle). Violated if the handle is that of a sink of another worker, C137_negation: removeSink takes the handle, removes nothing and says nothing. C137_stuck: such a sink then stays attached until its own worker removes all sinks; no removeSink can remove it any more. C137_statement_partial: the property if the worker is the one for which the sink was made. C137_exact: for every sequence of operations exactly which sinks each worker has, in which order, and which handles the program has. C137_all: removeAllSinks stops every sink of its worker. C137_log, C137_silent: exactly what the sinks get.

Further observations, not stated as properties:

* `LogWorker::save` concurrent with the destructor after `_bg.reset()` dereferences a null pointer (`ub` in Model/Worker). g3log.cpp avoids it only as far as C14 goes.
* `addSink` called while the destructor waits returns a handle whose sink is destroyed at once or never attached.
* Messages logged between the destructor's removal of the sinks and the end of the worker thread go to stderr only (C08, C55).
* The first message logged before initialisation is delivered at the first `initializeLogging` only; after a shut down the once-flags have fired, so later ones are
  dropped silently (C10, C11).
* `removeSink` called from a callback of that sink waits for its own thread.
* The same `LogMessagePtr` saved twice leaves the second task with a null payload (C19 shows that the payload has moved).
* On Windows `gBlockForFatal` stays false after one exception, so a later `LOG(FATAL)` does not wait for the worker (C59_exit).

## Mutation testing

`seeded/LOG.jsonl` has one line per wrong program tried: the definition, the edit, the claim it breaks, the theorems that failed, and what was tightened. The edits are
made in a scratch copy; a mutant counts as caught if the project no longer builds, the list names the declarations with errors.

## Properties, theorems and axioms

P = propext, C = Classical.choice, Q = Quot.sound.

| id | property | status | theorems | axioms |
|---|---|---|---|---|
| C01 | One order for all sinks, program order per thread | proved | C01_order, C01_same_order, C01_program_order | C P Q |
| C02 | Exactly-once delivery to exactly the attached sinks | proved | C02_prefix, C02_complete, C02_each, C02_attached | C P Q |
| C03 | Destroying the LogWorker flushes everything logged before | partial | C03_partial, C03_before_partial, C03_negation, C03_exact, C03_rest | C P Q |
| C04 | removeSink is synchronous and final | partial | C04_partial, C04_others, C04_negation, C04_exact, C04_rest | C P Q |
| C05 | removeAllSinks is synchronous and final | partial | C05_partial, C05_negation, C05_exact, C05_rest | C P Q |
| C06 | addSink is effective on return | proved | C06_effective, C06_not_before | C P Q |
| C07 | A fatal event flushes all earlier messages before the process dies | partial | C07_partial, C07_negation, C07_exact | C P Q |
| C08 | The fatal message is the last one | proved | C08_last, C08_nothing_later | C P Q |
| C09 | The process is ended by the signal that caused the fatal event | proved | C09_exit, C09_release, C09_default | P Q |
| C10 | First message before initialisation is kept, the others are dropped | proved | C10_first_kept, C10_before, C10_stderr | C P Q |
| C11 | LOG after shutdown is harmless and undelivered | proved | C11_after_shutdown | C P Q |
| C12 | Destroying an inactive worker does not stop logging | proved | C12_shutdown_active, C12_warning | C P Q |
| C13 | Illegal initialisation calls exit with a failure status | proved | C13_illegal, C13_legal, C13_message | C P Q |
| C14 | LOG racing with shutdown never touches a missing worker | partial | C14_negation, C14_no_fault_partial, C14_exact, C14_over | P Q |
| C15 | The message queue is a linearisable FIFO | proved | C15_linearisable, C15_fifo, C15_exclusive | P Q |
| C16 | No lost wake-up in the message queue | proved | C16_stuck, C16_progress, C16_bounded | C P Q |
| C17 | An active object runs exactly the tasks sent before its destruction, in order | proved | C17_exactly_those, C17_nothing_later, C17_destructor_returns | P Q |
| C18 | SinkHandle::call yields the call's result or an exception, in order with log messages | proved | C18_future_sequential, C18_future_result, C18_future_stores, C18_future_refused, C18_future_stable, C18_future_all, C18_calls_prefix, C18_calls_all, C18_calls_order, C18_refused, C18_refused_iff, C18_removed, C18_log_then_call | C P Q |
| C19 | Move-on-copy wrappers never duplicate or lose the message | proved | C19_conservation, C19_single_owner, C19_chain, C19_second_copy | P Q |
| C20 | A level is fatal exactly when its value is at least FATAL's | proved | C20_routing, C20_fatal_iff, C20_predefined | C P Q |
| C21 | Dynamic level registry behaves as a map from level value to on/off | proved | C21_registry_refines_map, C21_no_interference | C P Q |
| C22 | setHighest enables exactly the registered levels at or above the threshold | partial | C22_setHighest_partial, C22_negation | C P Q |
| C23 | Asking whether a level is enabled does not change the registry | partial | C23_query_readonly_partial, C23_query_unregistered, C23_negation | C P Q |
| C24 | LOG macros evaluate and emit exactly when they should | proved | C24_LOG_off, C24_LOG_on, C24_LOG_IF_off, C24_LOG_IF_on, C24_static_always_on | C P Q |
| C25 | CHECK cannot be disabled | partial | C25_CHECK_partial, C25_CHECK_ignores_registry, C25_negation, C25_exact | C P Q |
| C26 | Formatted entry carries every detail | proved | C26_toString, C26_contains_message, C26_signal_ctor, C26_signal_place | C P Q |
| C27 | A default-formatted entry can be parsed back | proved | C27_round_trip, C27_injective, C27_condition_needed | C P Q |
| C28 | Short file name | proved | C28_split, C28_unique, C28_message | C P Q |
| C29 | Copies of a message are complete and independent | partial | C29_copy, C29_copy_exact, C29_copy_toString, C29_assign_partial, C29_negation, C29_swap_involutive | C P Q |
| C30 | Formatter passed to toString / set on the sink is the one used | partial | C30_sink_formatter, C30_formatter_partial, C30_negation | C P Q |
| C31 | Sub-second fractions are fixed width and exact | proved | C31_fraction_digits, C31_prefix | C P Q |
| C32 | Every %f in a time format is replaced, nothing else changes | proved | C32_find, C32_terminates, C32_substitution, C32_no_fraction | C P Q |
| C33 | Formatting never fails, for any time point | partial | C33_iff, C33_right_iff, C33_total_partial, C33_negation, C33_before_epoch | C P Q |
| C34 | Timestamps keep the order and distance of the clock readings | proved | C34_constant_shift, C34_coarse_clock | P Q |
| C35 | printf-style messages are complete or marked as truncated | partial | C35_capturef_partial, C35_boundary, C35_negation, C35_setMax, C35_setMax_negation, C35_iff, C35_sizes | C P Q |
| C36 | The log file prefix is sanitised | proved | C36_prefix, C36_cleaning, C36_clean, C36_idempotent | C P Q |
| C37 | The log file is placed in the requested directory | partial | C37_path_partial, C37_cases, C37_blank, C37_negation, C37_trailing, C37_iff | C P Q |
| C38 | File content of the default sink | proved | C38_constructor, C38_content, C38_no_message, C38_interval_zero | C P Q |
| C39 | Bounded loss at a crash | proved | C39_bounded_loss, C39_wrap, C39_wrap_before | C P Q |
| C40 | changeLogFile loses and duplicates nothing | proved | C40_layout, C40_no_loss, C40_result | C P Q |
| C41 | Entries logged before a successful changeLogFile are in the old file | partial | C41_exact, C41_old_file_partial, C41_negation | C P Q |
| C42 | changeLogFile never destroys existing log content | partial | C42_reuse_exact, C42_kept_iff, C42_back_negation, C42_kept_partial, C42_same_name, C42_same_name_destroyed, C42_negation | C P Q |
| C43 | Signal dispositions are saved and restored | proved | C43_any_order, C43_any_order_back, C43_override, C43_init, C43_to_default, C43_restore_one, C43_restore_all, C43_off, C43_nothing_else | P Q |
| C44 | Choosing the signal set before initializeLogging is safe | partial | C44_counted, C44_exact, C44_one_init, C44_order_partial, C44_negation_signal, C44_negation_abort, C44_negation, C44_other_signals | P Q |
| C45 | Only one fatal signal is reported | proved | C45_one_report, C45_winner_proceeds, C45_after_release | C P Q |
| C46 | Exit reason text | proved | C46_named, C46_other, C46_injective, C46_signal_text | C P Q |
| C47 | The pre-fatal hook runs exactly once and recursion is contained | proved | C47_once, C47_history, C47_recursion_marked, C47_no_runaway, C47_hook_throws, C47_depth, C47_any_hook | C P Q |
| C48 | A fatal event before initialisation is reported and ends the process with its signal | partial | C48_negation, C48_lost, C48_report_partial, C48_exact, C48_iff, C48_second | C P Q |
| C49 | Only recursive crashes are labelled recursive | partial | C49_exact, C49_first_partial, C49_negation | C P Q |
| C50 | Stack dump line parsing | proved | C50_bracket_line, C50_plain_line, C50_no_plus, C50_brackets_total, C50_bracket_exact, C50_bracket_reversed, C50_plain_exact, C50_plain_no_name, C50_fails_iff, C50_dump, C50_raw | C P Q |
| C51 | End to end: what LOG emits is what the file contains | proved | C51_file, C51_all_logged, C51_program | C P Q |
| C52 | Everything drains | proved | C52_bounded, C52_drains, C52_exists | C P Q |
| C53 | Fatal message text | proved | C53_text | C P Q |
| C54 | Message text is what was streamed | proved | C54_text, C54_signal | C P Q |
| C55 | A worker without sinks reports to stderr | proved | C55_text, C55_text_prefix, C55_program_text, C55_fatal_text, C55_fatal_statement, C55_prefix, C55_complete, C55_each | C P Q |
| C56 | Log file name | proved | C56_name, C56_injective, C56_flat | C P Q |
| C57 | Registry printout lists every level once in ascending order | proved | C57_listing | C P Q |
| C58 | Default timestamps sort chronologically | proved | C58_default_stamp, C58_stamp_order, C58_file_stamp | C P Q |
| C59 | Windows: only known exceptions are intercepted | proved | C59_waiting, C59_dispositions, C59_text, C59_text_injective, C59_ignored, C59_reported, C59_unexpected, C59_exit, C59_signal_names, C59_signal | C P Q |
| C60 | Registry behaviour for every history, including LOG at unregistered levels | proved | C60_exact | C P Q |
| C61 | An escaped percent sign in a time format survives | partial | C61_escaped_percent_partial, C61_negation, C61_exact | C P Q |
| C62 | A fatal event ends the process | partial | C62_exact, C62_for_ever, C62_ends_partial, C62_hangs, C62_negation, C62_worker_hangs, C62_worker_negation | C P Q |
| C63 | Windows: a thread that logs has its fatal signals handled | partial | C63_thread_partial, C63_negation, C63_exact | C P Q |
| C64 | Windows: restoring undoes the installation | partial | C64_restore_partial, C64_negation, C64_exact | C P Q |
| C65 | Windows: the stack walk starts at the crash | partial | C65_start_partial, C65_negation | C P Q |
| C66 | Windows: only recursive dumps are labelled recursive | partial | C66_exact, C66_notice_partial, C66_negation | C P Q |
| C67 | Windows: the stack dump lists the frames | proved | C67_dump, C67_lines | C P Q |
| C68 | The message queue and its thread work down to single lock operations | proved | C68_refines, C68_runs, C68_program_order, C68_real_time, C68_stuck, C68_progress, C68_bounded | C P Q |
| C69 | A fatal signal is recorded wherever it hits a thread | partial | C69_lock_held, C69_negation, C69_lock_free_partial | C P Q |
| C70 | The log file at the end of a fatal event | proved | C70_file, C70_program | C P Q |
| C71 | From the LOG statement to the line in the file | proved | C71_log_to_file, C71_fatal_to_file | C P Q |
| C72 | Every sink gets its own complete copy | proved | C72_same, C72_once, C72_original | C P Q |
| C73 | Windows: printf-style messages are complete or marked as truncated | partial | C73_exact, C73_partial, C73_negation, C73_lost | C P Q |
| C74 | Simultaneous fatal events are reported like single ones | partial | C74_exact, C74_blame_iff, C74_messages_partial, C74_hook_partial, C74_late_partial, C74_progress_partial, C74_hook_twice, C74_hook_late, C74_label, C74_negation, C74_single_partial | C P Q |
| C75 | A message logged while another thread initialises logging is neither lost nor harmful | partial | C75_negation, C75_null, C75_freed, C75_once_partial, C75_after_partial, C75_orderly_safe_partial, C75_orderly_first_partial, C75_orderly_none_partial, C75_kept_partial | C P Q |
| C76 | A time stamp is complete for every time format | partial | C76_exact, C76_complete_partial, C76_long, C76_negation, C76_windows, C76_platforms | C P Q |
| C77 | Levels can be switched and listed while other threads log | partial | C77_frame, C77_writes, C77_reads, C77_alone, C77_getAll_alone, C77_no_race_partial, C77_exact, C77_negation, C77_negation_switch, C77_log_partial, C77_undisturbed_partial, C77_one_changer_partial | C P Q |
| C78 | File sinks do not disturb each other | partial | C78_independent_partial, C78_other_files, C78_content_partial, C78_same_name, C78_emptied, C78_negation | C P Q |
| C79 | A second fatal event does not cut off the report of the first | partial | C79_one_at_a_time_partial, C79_signals_partial, C79_single_partial, C79_negation, C79_negation_signal, C79_negation_null | C P Q |
| C80 | A fatal statement never returns | partial | C80_no_return_partial, C80_exiting, C80_negation, C80_negation_race, C80_negation_exit, C80_killed, C80_exited, C80_single, C80_default | C P Q |
| C81 | A write error costs no more than the entries concerned | partial | C81_no_error, C81_no_error_end, C81_silent, C81_kept, C81_deaf, C81_negation, C81_recover | C P Q |
| C82 | A file sink that cannot create its file is reported or harmless | partial | C82_constructor, C82_opened_partial, C82_negation, C82_until_partial, C82_write | C P Q |
| C83 | A sink that hangs holds up nobody else | partial | C83_loggers, C83_others_partial, C83_exact, C83_reached, C83_held_up, C83_negation | C P Q |
| C84 | LOG statements of several threads: every line complete, once, in the order of its thread | proved | C84_locks_refine, C84_locks_prefix, C84_locks_to_file, C84_locks_all, C84_threads_to_file, C84_prefix, C84_all, C84_late | C P Q |
| C85 | exit() ends the process and keeps the log | partial | C85_fatal_end, C85_static_exit, C85_prefix, C85_exact, C85_ends_partial, C85_stopped, C85_number, C85_woken, C85_never, C85_negation, C85_negation_lost | C P Q |
| C86 | An exception thrown inside a logging statement reaches the caller | partial | C86_off, C86_stream, C86_condition, C86_condition_off, C86_check, C86_contract, C86_printf, C86_caller_partial, C86_negation, C86_fatal | C P Q |
| C87 | Everything streamed into a statement is in its message | partial | C87_exact, C87_all_partial, C87_negation | C P Q |
| C88 | what a thread did before it logged is visible in the sink | proved | C88_callback, C88_sender, C88_chain, C88_future, C88_destructor, C88_destroyed_first, C88_removed | C P Q |
| C89 | no data race between threads that log, the worker and the sinks | proved | C89_running, C89_race_free, C89_joined, C89_events, C89_needed | C P Q |
| C90 | which functions may be called at the same time | partial | C90_sound, C90_exact, C90_documented_partial, C90_logging_partial, C90_negation, C90_calls, C90_calls_real, C90_meaning | C P Q |
| C91 | A sink whose callback throws does not hang the process and costs the other sinks nothing | partial | C91_as_before, C91_prefix, C91_exact, C91_stops, C91_hangs, C91_others_partial, C91_negation, C91_bounded, C91_rests, C91_others_reached_partial | C P Q |
| C92 | With several threads, a fatal statement ends the program only after everything logged before is in the file | partial | C92_file_partial, C92_premature_partial, C92_single_partial, C92_label, C92_ends_partial, C92_negation, C92_cut | C P Q |
| C93 | Any number of threads may be anywhere inside the queues: nothing is lost, doubled, reordered or used after its destruction, and no wake-up is missed | proved | C93_refines, C93_received, C93_no_dangling, C93_race_free, C93_destroys, C93_terminates, C93_rests, C93_delivers, C93_race_reachable, C93_drains, C93_conserved, C93_program_order | C P Q |
| C94 | A sink may use the logger from its callbacks: it never waits for ever and the process is not ended by it | partial | C94_refines, C94_prefix, C94_forever, C94_exact, C94_rest, C94_bounded, C94_reached, C94_ordered_partial, C94_delivers_partial, C94_terminates, C94_no_terminate_partial, C94_own, C94_self_wait, C94_while_removed, C94_self_removal, C94_negation_wait, C94_negation_remove, C94_negation_two, C94_negation_terminate | C P Q |
| C95 | What the file sink says on stderr is true and tells where the log is | partial | C95_same, C95_construction, C95_silent, C95_true_partial, C95_negation, C95_life, C95_location, C95_stopped, C95_stops | C P Q |
| C96 | A signal handler that the system refuses is reported under its own name | partial | C96_call, C96_history, C96_first, C96_off, C96_same, C96_forgotten, C96_negation_forgotten, C96_negation_one_line, C96_write, C96_result_partial, C96_negation_result, C96_windows_install, C96_windows_once, C96_windows_restore, C96_windows_same, C96_negation_windows | C P Q |
| C97 | Windows: after an exception that the program handles itself, logging works as before | partial | C97_prefix, C97_complete, C97_err, C97_each, C97_detaches, C97_lost, C97_process, C97_same, C97_raise, C97_released, C97_sink_released, C97_waits_partial, C97_returns, C97_sink_hangs, C97_negation, C97_negation_fatal, C97_negation_second | C P Q |
| C98 | The log file may be changed while other threads log: no line is lost, doubled or torn, and it is in the file of its time | partial | C98_files, C98_fatal, C98_after, C98_before, C98_before_partial, C98_formats, C98_threads, C98_negation | C P Q |
| C99 | A logging statement is one statement, wherever it stands | proved | C99_unique, C99_reading, C99_behaviour, C99_accepted | C P Q |
| C100 | A message has the level that was tested | partial | C100_partial, C100_count, C100_second, C100_negation | C P Q |
| C101 | Static objects may log | partial | C101_exact, C101_otherwise, C101_partial, C101_enough, C101_constructor, C101_negation, C101_zero | C P Q |
| C102 | A forked child can log, change sinks, end and crash as its parent could | partial | C102_nothing, C102_calls, C102_end, C102_locked, C102_log, C102_negation, C102_partial | C P Q |
| C103 | Without memory or threads each call does its job or throws and changes nothing, and the process survives | partial | C103_create, C103_add, C103_remove, C103_removeAll, C103_destroy, C103_log, C103_no_leak, C103_create_one, C103_add_one, C103_remove_one, C103_removeAll_one, C103_destroy_one, C103_log_one, C103_partial, C103_negation | C P Q |
| C104 | An illegal initialisation ends the process with a failure status and keeps the log | partial | C104_rule, C104_never_replaced, C104_status, C104_hangs, C104_ends_partial, C104_exact, C104_static, C104_negation | C P Q |
| C105 | An initializeLogging that throws for lack of memory can simply be called again | partial | C105_throws, C105_memory_back, C105_retry, C105_exact, C105_partial, C105_exit, C105_one_request, C105_requests, C105_again, C105_negation | P Q |
| C106 | A call through a sink handle is made with the arguments of the time of the call | partial | C106_values_partial, C106_finds, C106_exact, C106_waiting, C106_expired, C106_fills, C106_negation, C106_negation_gone, C106_stops | C P Q |
| C107 | What g3log writes of itself does not depend on the program's locale | partial | C107_punctuated, C107_only, C107_digits, C107_same, C107_classic, C107_default_partial, C107_full, C107_signal, C107_reason, C107_frame, C107_dump, C107_time, C107_stamp_partial, C107_when, C107_default_file_partial, C107_early_partial, C107_negation, C107_negation_pid | C P Q |
| C108 | A fatal statement ends the process also when memory is short | partial | C108_exact, C108_partial, C108_never_returns, C108_throws, C108_second, C108_again, C108_no_leak, C108_end, C108_programs, C108_negation | C P Q |
| C109 | A call through a sink handle is made once and its future has the result, or it throws and is not made, also without memory | proved | C109_call, C109_made | C P Q |
| C110 | The destructor of a sink may use the library | partial | C110_active, C110_requests, C110_partial, C110_log, C110_when, C110_lost, C110_returns, C110_waits, C110_hangs, C110_negation, C110_add_negation | C P Q |
| C111 | Fatal events in the destructors of sinks | partial | C111_requests, C111_exact, C111_partial, C111_thread, C111_hangs, C111_negation, C111_hang_negation, C111_signal_negation | C P Q |
| C112 | A pre-fatal hook may use the library | partial | C112_active, C112_requests, C112_once, C112_waits, C112_destroyed, C112_ends, C112_finite, C112_partial, C112_lost, C112_negation, C112_shutdown_negation, C112_others | C P Q |
| C113 | Entries of the log are in the order of their time stamps | partial | C113_from, C113_whole, C113_all, C113_order, C113_thread_partial, C113_no_hook, C113_fatal_last, C113_overlap, C113_real_time, C113_sink, C113_end, C113_negation, C113_hook_negation, C113_clock_negation | C P Q |
| C114 | Changing the handled signals leaves no gap | partial | C114_actions, C114_order, C114_done, C114_hit, C114_partial, C114_negation, C114_hang_negation | C P Q |
| C115 | Windows: an exception is reported once if it is fatal, and a fatal signal always, in every build | partial | C115_default, C115_signals, C115_exact, C115_once_partial, C115_caught_negation, C115_negation, C115_twice_negation, C115_signal, C115_break_negation, C115_actions | C P Q |
| C116 | A time stamp identifies the moment, and the log file of an earlier run is not overwritten | partial | C116_calendar, C116_decode, C116_exact, C116_unchanged_partial, C116_forward_partial, C116_negation, C116_file_stamp, C116_names, C116_restart, C116_restart_negation | C P Q |
| C117 | The entries can be read back from a log file, and no message can pass for another entry | partial | C117_lines, C117_read_partial, C117_any_text, C117_forge, C117_negation | C P Q |
| C118 | Messages that wait take a bounded amount of memory and logging never waits for a sink | partial | C118_never_waits, C118_account, C118_kept, C118_burst_partial, C118_negation, C118_rounds | C P Q |
| C119 | Logging can be shut down and started again, and the new life is like the first one of a new process | partial | C119_again_partial, C119_like_new, C119_negation, C119_install_once, C119_gap | C P Q |
| C120 | The options chosen for the build of the library hold in every program that includes its headers | proved | C120_header, C120_written, C120_exact, C120_features, C120_clash, C120_again, C120_ios | C P Q |
| C121 | A crash inside a pre-fatal hook is reported as a recursive crash, and the process ends | partial | C121_exact, C121_statement_partial, C121_signal_iff, C121_negation, C121_documented_hook, C121_deaf, C121_user_handler, C121_same | C P Q |
| C122 | A fatal signal is reported wherever it hits the program, whatever locks are held then | partial | C122_lost, C122_through_partial, C122_bounded, C122_reached, C122_exact, C122_negation, C122_own_lock | C P Q |
| C123 | A log file that other programs rename, remove, empty or append to while the program logs loses no entry | partial | C123_trace, C123_trace_end, C123_names, C123_others, C123_exact, C123_visible, C123_removed, C123_silent, C123_renamed_partial, C123_moved, C123_touched, C123_emptied, C123_extended, C123_reopened, C123_same, C123_negation, C123_nul | C P Q |
| C124 | A program may block signals in its threads: a fatal event is reported and ends the process with its signal | partial | C124_setup, C124_exact, C124_statement_partial, C124_hangs, C124_outside, C124_dilemma, C124_fault, C124_waits, C124_once, C124_own, C124_early, C124_between, C124_between_restored, C124_negation, C124_late_mask, C124_can, C124_masks, C124_unblocked, C124_unblocked_single | C P Q |
| C125 | A crash is reported however deep the calls are, a stack overflow included | partial | C125_statement_partial, C125_exact, C125_runs, C125_recursion, C125_altstack, C125_onstack, C125_onstack_overflow, C125_larger, C125_negation | C P Q |
| C126 | A shared library that has logged may be unloaded, and memory used in a message freed, while the message waits | proved | C126_exact, C126_safe, C126_history, C126_statement, C126_unload, C126_formatter, C126_end_counts | P Q |
| C127 | Functions that log may be called inside logging statements | proved | C127_exact, C127_possible, C127_statement, C127_independent, C127_fatal, C127_once, C127_same | C P Q |
| C128 | A program may log in its own signal handlers | partial | C128_through, C128_bounded, C128_reached, C128_lost, C128_others, C128_statement_partial, C128_exact, C128_negation | C P Q |
| C129 | Every log file begins with its header | partial | C129_exact, C129_statement_partial, C129_later, C129_negation | C P Q |
| C130 | A time stamp is in the time zone of its statement | partial | C130_can, C130_exact, C130_lines, C130_statement_partial, C130_fixed, C130_settles, C130_from_epoch, C130_default, C130_negation, C130_sinks_negation, C130_stale_negation | C P Q |
| C131 | A time stamp shows what the system clock showed at its statement | partial | C131_can, C131_exact, C131_stamps, C131_system, C131_steady, C131_statement_partial, C131_unset, C131_steady_order, C131_order_negation, C131_negation, C131_between_negation | C P Q |
| C132 | A log file that the sink has left is released | partial | C132_can, C132_exact, C132_statement_partial, C132_kept, C132_negation, C132_both | C P Q |
| C133 | A logging statement shows and leaves errno as the program set it | partial | C133_exact, C133_can, C133_statement_partial, C133_own, C133_printf, C133_condition, C133_dump_negation, C133_insert_negation, C133_report_negation | C P Q |
| C134 | A broken pipe or a full quota costs only the entries concerned | partial | C134_exact, C134_can, C134_statement_partial, C134_kept, C134_once, C134_negation, C134_limit_negation | C P Q |
| C135 | The thread identification of an entry tells which thread logged it | partial | C135_exact, C135_caller, C135_can, C135_apart, C135_statement_partial, C135_negation | C P Q |
| C136 | A change of the format applies to the entries logged after it | partial | C136_exact, C136_can, C136_later, C136_statement_partial, C136_negation | C P Q |
| C137 | removeSink removes the sink of its handle | partial | C137_exact, C137_log, C137_silent, C137_statement_partial, C137_all, C137_stuck, C137_negation | C P Q |
