{"id": "C01", "title": "One order for all sinks, program order per thread", "statement": "For any two sinks of a LogWorker, the messages both of them receive arrive in the same relative order; that order is the order in which the LOG calls entered the worker, so two messages logged by one thread reach every sink in program order.", "quantifier": "every number of client threads, sinks and messages and every schedule of client, worker and sink threads", "why_tests_cant": "An interleaving test samples a handful of schedules; the claim is about all of them.", "anchors": ["src/logworker.cpp: LogWorker::save, LogWorkerImpl::bgSave", "src/g3log/sink.hpp: Sink::send", "src/g3log/active.hpp: Active::run", "src/g3log/shared_queue.hpp: push, wait_and_pop"]}
{"id": "C02", "title": "Exactly-once delivery to exactly the attached sinks", "statement": "Each message handed to the worker is delivered exactly once to every sink that is attached when the worker reaches it (added before, not removed before), and never to any other sink.", "quantifier": "every history of add/remove/log operations, any number of sinks, every schedule", "why_tests_cant": "The loss or duplication needs one specific interleaving of add/remove/log among unboundedly many.", "anchors": ["src/logworker.cpp: bgSave, addWrappedSink", "src/g3log/logworker.hpp: addSink, removeSink, removeAllSinks"]}
{"id": "C03", "title": "Destroying the LogWorker flushes everything logged before", "statement": "When the LogWorker destructor has returned, every message that was handed to the worker before the destructor started has been processed by every sink attached at that message's turn, every sink has been destroyed, and nothing is delivered later.", "quantifier": "every backlog size, every number of sinks, every schedule", "why_tests_cant": "An interleaving test samples a handful of schedules; the claim is about all of them.", "anchors": ["src/logworker.cpp: LogWorker::~LogWorker", "src/g3log/logworker.hpp: removeAllSinks", "src/g3log/active.hpp: Active::~Active", "src/g3log/sink.hpp: Sink::~Sink"]}
{"id": "C04", "title": "removeSink is synchronous and final", "statement": "When removeSink(handle) returns the sink has received every message handed to the worker before the call, is detached, and never receives another message; other sinks are unaffected.", "quantifier": "every backlog, every set of sinks, every schedule", "why_tests_cant": "An interleaving test samples a handful of schedules; the claim is about all of them.", "anchors": ["src/g3log/logworker.hpp: removeSink"]}
{"id": "C05", "title": "removeAllSinks is synchronous and final", "statement": "When removeAllSinks() returns no sink is attached and every formerly attached sink has received everything handed to the worker before the call; later messages reach only sinks added later.", "quantifier": "every history and schedule", "why_tests_cant": "An interleaving test samples a handful of schedules; the claim is about all of them.", "anchors": ["src/g3log/logworker.hpp: removeAllSinks"]}
{"id": "C06", "title": "addSink is effective on return", "statement": "Every message handed to the worker after addSink returned is delivered to the new sink (until it is removed); messages handed to the worker before addSink was called are not.", "quantifier": "every history and schedule", "why_tests_cant": "An interleaving test samples a handful of schedules; the claim is about all of them.", "anchors": ["src/g3log/logworker.hpp: addSink", "src/logworker.cpp: addWrappedSink"]}
{"id": "C07", "title": "A fatal event flushes all earlier messages before the process dies", "statement": "If the process is ended by the worker because of a fatal message, then at that moment every message handed to the worker before the fatal one has been processed by every sink attached at its turn, the fatal message has been processed by every attached sink, and all these sinks have been destroyed (flushed).", "quantifier": "every backlog, any number of sinks, every schedule, every point at which the process may end", "why_tests_cant": "Process death under every interleaving cannot be enumerated by death tests.", "anchors": ["src/logworker.cpp: LogWorkerImpl::bgFatal, LogWorker::fatal", "src/g3log.cpp: pushFatalMessageToLogger"]}
{"id": "C08", "title": "The fatal message is the last one", "statement": "No sink ever receives any message after the fatal message, whatever other threads log concurrently.", "quantifier": "every schedule and every set of messages logged concurrently or later", "why_tests_cant": "An interleaving test samples a handful of schedules; the claim is about all of them.", "anchors": ["src/logworker.cpp: bgFatal"]}
{"id": "C09", "title": "The process is ended by the signal that caused the fatal event", "statement": "After the fatal message is flushed the process raises exactly the signal recorded with the fatal event (SIGABRT for LOG(FATAL) and CHECK), with the handlers that were in place before g3log restored; if that signal returns, the process exits with that number.", "quantifier": "every signal number, every previous signal disposition", "why_tests_cant": "A death test can only observe a few signal numbers and dispositions.", "anchors": ["src/crashhandler_unix.cpp: exitWithDefaultSignalHandler, restoreSignalHandler"]}
{"id": "C10", "title": "First message before initialisation is kept, the others are dropped", "statement": "Of all non-fatal messages logged before the first initializeLogging, exactly the first is kept; it is delivered to the first initialised worker before any message logged after initialisation, with its text prefixed by 'LOGGER NOT INITIALIZED:'; the others are dropped. Later un-initialised periods deliver nothing.", "quantifier": "every history of log / initialise / shut down operations", "why_tests_cant": "Once-flags make the behaviour depend on the whole process history; tests get one history per process.", "anchors": ["src/g3log.cpp: pushMessageToLogger, initializeLogging"]}
{"id": "C11", "title": "LOG after shutdown is harmless and undelivered", "statement": "After shutDownLogging (or the worker's destruction) a LOG call reaches no worker and does not fail; after a new initializeLogging messages go to the new worker only.", "quantifier": "every history of log / initialise / shut down / destroy operations", "why_tests_cant": "History dependent.", "anchors": ["src/g3log.cpp: shutDownLogging, pushMessageToLogger, initializeLogging"]}
{"id": "C12", "title": "Destroying an inactive worker does not stop logging", "statement": "shutDownLoggingForActiveOnly (and hence the destructor) of a worker that is not the active one leaves the active worker active, returns false and logs exactly one warning to the active worker; for the active worker (or when none is active, or with nullptr) it returns true and logging is off.", "quantifier": "every history and every pair of workers", "why_tests_cant": "History dependent.", "anchors": ["src/g3log.cpp: shutDownLoggingForActiveOnly", "src/logworker.cpp: ~LogWorker"]}
{"id": "C13", "title": "Illegal initialisation calls exit with a failure status", "statement": "initializeLogging(nullptr) and initializeLogging while a worker is already active call exit(EXIT_FAILURE) instead of returning (what exit does is the subject of C104) and hand nothing to any worker; any other call makes the given worker active.", "quantifier": "every history", "why_tests_cant": "exit() inside a test process; history dependent.", "anchors": ["src/g3log.cpp: initializeLogging"]}
{"id": "C14", "title": "LOG racing with shutdown never touches a missing worker", "statement": "A LOG call made by one thread while another thread shuts logging down or destroys the worker never dereferences a null or destroyed worker.", "quantifier": "every interleaving of the two memory accesses of LOG with shutdown/destruction", "why_tests_cant": "The window is two instructions wide.", "anchors": ["src/g3log.cpp: pushMessageToLogger, isLoggingInitialized, shutDownLogging"]}
{"id": "C15", "title": "The message queue is a linearisable FIFO", "statement": "Any number of producers and consumers may use shared_queue concurrently: all operations take effect one at a time at some instant between call and return, in an order in which the queue is a plain FIFO: nothing is lost, duplicated, invented or reordered, and try_and_pop fails only on an empty queue.", "quantifier": "any number of threads, any programs of push/try_and_pop/wait_and_pop/empty/size calls, every interleaving down to lock/unlock/notify steps", "why_tests_cant": "An interleaving test samples a handful of schedules; the claim is about all of them.", "anchors": ["src/g3log/shared_queue.hpp: push, try_and_pop, wait_and_pop, empty, size"]}
{"id": "C16", "title": "No lost wake-up in the message queue", "statement": "It never happens that all threads are stuck while the queue holds an item and a consumer is waiting in wait_and_pop; the queue never deadlocks.", "quantifier": "any number of producers and consumers, every interleaving, including spurious wake-ups and any choice made by notify_one", "why_tests_cant": "Lost wake-ups need a specific interleaving of unlock, notify and wait.", "anchors": ["src/g3log/shared_queue.hpp: push, wait_and_pop"]}
{"id": "C17", "title": "An active object runs exactly the tasks sent before its destruction, in order", "statement": "The background thread executes tasks one at a time in the order they were sent; when the destructor returns, exactly the tasks sent before the destructor's own final task have run, each once; tasks sent later never run.", "quantifier": "any number of tasks and senders, every schedule", "why_tests_cant": "An interleaving test samples a handful of schedules; the claim is about all of them.", "anchors": ["src/g3log/active.hpp: send, run, ~Active"]}
{"id": "C18", "title": "SinkHandle::call yields the call's result or an exception, in order with log messages", "statement": "A call on a live sink runs exactly once on the sink's thread, after everything sent to that sink before and before everything sent after; its future receives the result (or the exception the call threw) at the latest when the sink is destroyed. A call on a removed sink runs nothing and its future holds bad_weak_ptr. A task spawned on a null worker yields an exception.", "quantifier": "every history of calls, messages and removals, every schedule", "why_tests_cant": "An interleaving test samples a handful of schedules; the claim is about all of them.", "anchors": ["src/g3log/sinkhandle.hpp: SinkHandle::call", "src/g3log/sink.hpp: Sink::async", "src/g3log/future.hpp: spawn_task"]}
{"id": "C19", "title": "Move-on-copy wrappers never duplicate or lose the message", "statement": "However often a wrapped message or task is copied on its way from the LOG call to the worker, exactly one live copy owns the payload, and it is the most recent one along the hand-over chain.", "quantifier": "every sequence of copies, moves, assignments and releases", "why_tests_cant": "Number and order of copies depend on library internals.", "anchors": ["src/g3log/moveoncopy.hpp: MoveOnCopy", "src/logworker.cpp: LogWorker::save"]}
{"id": "C20", "title": "A level is fatal exactly when its value is at least FATAL's", "statement": "For every level value and text, the message is treated as fatal (flush and exit) iff value >= 1000; all others are delivered as ordinary messages.", "quantifier": "every level value and text, every registry state", "why_tests_cant": "Unbounded value domain.", "anchors": ["src/loglevels.cpp: wasFatal", "src/g3log.cpp: saveMessage"]}
{"id": "C21", "title": "Dynamic level registry behaves as a map from level value to on/off", "statement": "For every history of addLogLevel, set, enable, disable, enableAll, disableAll, reset and LOG calls in which LOG uses only levels that are registered at that moment (as the header demands), a level is enabled iff the last operation that concerns it left it enabled; set/enable/disable of an unknown level change nothing; getStatus reports Absent/Enabled/Disabled accordingly; one level never influences another.", "quantifier": "every history of registry operations and every level", "why_tests_cant": "Unbounded histories.", "anchors": ["src/loglevels.cpp: addLogLevel, set, enable, disable, enableAll, disableAll, reset, getStatus, logLevel"]}
{"id": "C22", "title": "setHighest enables exactly the registered levels at or above the threshold", "statement": "After setHighest(L) with L registered, every registered level is enabled iff its value is >= L's value; if L is not registered nothing changes.", "quantifier": "every registry state reachable by any history, every threshold", "why_tests_cant": "Depends on what has been logged before, with which custom levels.", "anchors": ["src/loglevels.cpp: setHighest, logLevel"]}
{"id": "C23", "title": "Asking whether a level is enabled does not change the registry", "statement": "logLevel(L), i.e. a mere LOG(L), never changes any level's status, and is false for a level never registered.", "quantifier": "every reachable registry state and level", "why_tests_cant": "Depends on history.", "anchors": ["src/loglevels.cpp: logLevel, getStatus"]}
{"id": "C24", "title": "LOG macros evaluate and emit exactly when they should", "statement": "LOG/LOGF emit one message iff the level is enabled; LOG_IF/LOGF_IF iff the level is enabled and the condition holds, not evaluating the condition when the level is disabled; message arguments are evaluated iff a message is emitted; with dynamic levels compiled out every level is enabled.", "quantifier": "every registry state, level, condition and argument", "why_tests_cant": "All combinations of state, level and condition.", "anchors": ["src/g3log/g3log.hpp: LOG, LOG_IF, LOGF, LOGF_IF", "src/loglevels.cpp: logLevel"]}
{"id": "C25", "title": "CHECK cannot be disabled", "statement": "CHECK/CHECKF emit a fatal CONTRACT message iff the condition is not true, whatever the level registry says; the condition is evaluated exactly once.", "quantifier": "every registry state, condition", "why_tests_cant": "All registry states.", "anchors": ["src/g3log/g3log.hpp: CHECK, CHECKF, CHECK_F"]}
{"id": "C26", "title": "Formatted entry carries every detail", "statement": "toString() is exactly: timestamp TAB level ' [' file '->' function ':' line ']' TAB message NEWLINE for ordinary levels, and the documented variants for LOG(FATAL), CHECK, signal and custom fatal levels; the message text always appears unmodified and each fatal kind carries its own marker (the expression for CHECK).", "quantifier": "every message content, level and details formatter", "why_tests_cant": "Unbounded strings and levels.", "anchors": ["src/logmessage.cpp: toString, normalToString, fatalLogToString, fatalCheckToString, fatalSignalToString, fatalExceptionToString, DefaultLogDetailsToString, FullLogDetailsToString"]}
{"id": "C27", "title": "A default-formatted entry can be parsed back", "statement": "From a default-formatted ordinary entry, timestamp, level, file, function, line and message can all be recovered uniquely, provided level text and file contain no delimiter; two different records never print the same line.", "quantifier": "every record with delimiter-free level/file text, every message", "why_tests_cant": "Unbounded strings.", "anchors": ["src/logmessage.cpp: DefaultLogDetailsToString, normalToString"]}
{"id": "C28", "title": "Short file name", "statement": "The file part of a message is the part of __FILE__ after the last '/', '\\\\' or '(' (the whole string if none); the full path stays available unchanged.", "quantifier": "every path string", "why_tests_cant": "Unbounded strings.", "anchors": ["src/logmessage.cpp: splitFileName, LogMessage::LogMessage"]}
{"id": "C29", "title": "Copies of a message are complete and independent", "statement": "Copy construction, move construction and assignment yield a message equal in every field to the source, and each sink's copy is unaffected by what another sink does to its own.", "quantifier": "every message", "why_tests_cant": "All field values.", "anchors": ["src/logmessage.cpp: copy/move constructor, operator=", "src/g3log/logmessage.hpp: swap", "src/logworker.cpp: bgSave"]}
{"id": "C30", "title": "Formatter passed to toString / set on the sink is the one used", "statement": "toString(f) formats the details with f, whatever formatter was used before; FileSink uses the last formatter given to overrideLogDetails; toString() uses the formatter set with overrideLogDetailsFunc.", "quantifier": "every sequence of formatter changes and messages", "why_tests_cant": "Histories.", "anchors": ["src/logmessage.cpp: toString, overrideLogDetailsFunc", "src/filesink.cpp: overrideLogDetails, fileWrite"]}
{"id": "C31", "title": "Sub-second fractions are fixed width and exact", "statement": "For every time at or after the epoch %f3/%f6/%f9/%f produce exactly 3/6/9/9 decimal digits whose value is the truncated fraction of the second.", "quantifier": "every time point, every unit", "why_tests_cant": "10^9 fractions times all seconds.", "anchors": ["src/time.cpp: internal::to_string"]}
{"id": "C32", "title": "Every %f in a time format is replaced, nothing else changes", "statement": "In a time format every %f (with optional 3, 6, 9) is replaced by the corresponding digits, all other characters are left as they are, for any number of occurrences, and the replacement terminates.", "quantifier": "every format string and time", "why_tests_cant": "Unbounded strings.", "anchors": ["src/time.cpp: localtime_formatted_fractions, getFractional"]}
{"id": "C33", "title": "Formatting never fails, for any time point", "statement": "Formatting a fraction succeeds for every representable time point.", "quantifier": "every time point, including before 1970", "why_tests_cant": "Domain of time points.", "anchors": ["src/time.cpp: internal::to_string"]}
{"id": "C34", "title": "Timestamps keep the order and distance of the clock readings", "statement": "Converting message timestamps to system time preserves their differences and hence their order.", "quantifier": "every pair of readings", "why_tests_cant": "All pairs.", "anchors": ["src/g3log/time.hpp: to_system_time"]}
{"id": "C35", "title": "printf-style messages are complete or marked as truncated", "statement": "A LOGF/CHECKF message appears in full if it fits the buffer; otherwise its first (size-1) characters appear followed by '[...truncated...]'; a formatting failure is reported with the format string.", "quantifier": "every formatted text and every configured message size", "why_tests_cant": "The boundary sizes are configuration dependent.", "anchors": ["src/logcapture.cpp: capturef, setMaxMessageSize"]}
{"id": "C36", "title": "The log file prefix is sanitised", "statement": "A FileSink either aborts or uses a prefix consisting of the given prefix without whitespace and / \\\\ . : , and which contains no character illegal in file names.", "quantifier": "every prefix string", "why_tests_cant": "Unbounded strings.", "anchors": ["src/filesinkhelper.ipp: prefixSanityFix, isValidFilename", "src/filesink.cpp: FileSink::FileSink"]}
{"id": "C37", "title": "The log file is placed in the requested directory", "statement": "For every directory string the log file path is that directory (backslashes turned to slashes, trailing slashes and blanks ignored), one '/', and the file name.", "quantifier": "every directory string and file name", "why_tests_cant": "Unbounded strings.", "anchors": ["src/filesinkhelper.ipp: pathSanityFix"]}
{"id": "C38", "title": "File content of the default sink", "statement": "After a FileSink that was never redirected is destroyed, its file contains exactly the header, all entries in order of arrival, and the shutdown line (just the shutdown line if no message arrived).", "quantifier": "every sequence of messages and header/formatter changes, every flush interval >= 1, every moment at which the stream itself spills", "why_tests_cant": "Unbounded sequences.", "anchors": ["src/filesink.cpp: fileWrite, ~FileSink, addLogFileHeader"]}
{"id": "C39", "title": "Bounded loss at a crash", "statement": "At any instant between two calls, all but at most the last (N-1) entries received are already in the file, where N is the flush interval; with N = 1 none is missing.", "quantifier": "every history, crash point and flush interval >= 1", "why_tests_cant": "All crash points.", "anchors": ["src/filesink.cpp: fileWrite"]}
{"id": "C40", "title": "changeLogFile loses and duplicates nothing", "statement": "For every sequence of messages and changeLogFile calls to fresh file names, after destruction the entries found in the used files, read in order of use, are exactly the messages received, in order; a failed change returns an empty name, keeps the old file and loses nothing.", "quantifier": "every sequence of writes and (successful or failing) changes", "why_tests_cant": "Unbounded sequences.", "anchors": ["src/filesink.cpp: changeLogFile"]}
{"id": "C41", "title": "Entries logged before a successful changeLogFile are in the old file", "statement": "After a successful changeLogFile all entries received before are in the old file and entries received later are in the new one.", "quantifier": "every flush interval and history", "why_tests_cant": "Depends on the buffer fill at the moment of the change.", "anchors": ["src/filesink.cpp: changeLogFile, fileWrite"]}
{"id": "C42", "title": "changeLogFile never destroys existing log content", "statement": "Changing the log file never removes entries that were already written to the current file.", "quantifier": "every target name including the current one", "why_tests_cant": "Requires two changes within one second.", "anchors": ["src/filesink.cpp: changeLogFile", "src/filesinkhelper.ipp: openLogFile, createLogFileName"]}
{"id": "C43", "title": "Signal dispositions are saved and restored", "statement": "After overrideSetupSignals(S) exactly the signals in S are handled by g3log, and every other signal has the disposition it had before g3log touched it; restoring brings every signal back to its original disposition.", "quantifier": "every initial disposition, every sequence of override/restore calls", "why_tests_cant": "All sequences and dispositions.", "anchors": ["src/crashhandler_unix.cpp: installSignalHandler, restoreSignalHandler, overrideSetupSignals"]}
{"id": "C44", "title": "Choosing the signal set before initializeLogging is safe", "statement": "Calling overrideSetupSignals or installCrashHandler before (or in addition to) initializeLogging does not change how a fatal event ends the process.", "quantifier": "every order of the setup calls", "why_tests_cant": "All call orders times fatal events.", "anchors": ["src/crashhandler_unix.cpp: installSignalHandler, exitWithDefaultSignalHandler, signalHandler", "src/g3log.cpp: initializeLogging"]}
{"id": "C45", "title": "Only one fatal signal is reported", "statement": "However many threads receive fatal signals, exactly one of them produces a fatal message as long as the process has not been released for exit; all others wait.", "quantifier": "any number of threads and signals, every interleaving", "why_tests_cant": "An interleaving test samples a handful of schedules; the claim is about all of them.", "anchors": ["src/crashhandler_unix.cpp: signalHandler, shouldDoExit"]}
{"id": "C46", "title": "Exit reason text", "statement": "The reason text is the signal's name for SIGABRT, SIGFPE, SIGILL, SIGSEGV, SIGTERM and otherwise names the number and the level; different signals never share a text for the same level.", "quantifier": "every signal number and level", "why_tests_cant": "All ints.", "anchors": ["src/crashhandler_unix.cpp: exitReasonName"]}
{"id": "C47", "title": "The pre-fatal hook runs exactly once and recursion is contained", "statement": "The hook set by setFatalPreLoggingHook runs exactly once, before the fatal message is handed over; a fatal event raised inside the hook does not run it again and is marked as a recursive crash.", "quantifier": "every hook, including hooks that themselves trigger any nesting of fatal events", "why_tests_cant": "Unbounded nesting.", "anchors": ["src/g3log.cpp: saveFatalMessage, setFatalPreLoggingHook, initializeLogging"]}
{"id": "C48", "title": "A fatal event before initialisation is reported and ends the process with its signal", "statement": "LOG(FATAL)/CHECK(false) with no worker ever initialised prints the cause and the message to stderr and exits with the fatal signal.", "quantifier": "every history without initializeLogging", "why_tests_cant": "Static state consumed by the first event in a process.", "anchors": ["src/g3log.cpp: saveFatalMessage, pushFatalMessageToLogger"]}
{"id": "C49", "title": "Only recursive crashes are labelled recursive", "statement": "A fatal message carries the 'recursive crash' warning iff it was raised while another fatal message was being prepared.", "quantifier": "every history of fatal events with a custom exit handler", "why_tests_cant": "History dependent.", "anchors": ["src/g3log.cpp: saveFatalMessage"]}
{"id": "C50", "title": "Stack dump line parsing", "statement": "For every line of the form path(symbol+offset)rest the dump shows symbol and offset; for every line without brackets of the form '... _symbol + offset' likewise. In general a line with both brackets is decided by the text between its last '(' and its last ')' (the rest of the line if that ')' comes first), split at its first plus sign, and shown whole when a part is missing or empty; a line without a bracket pair, without a plus sign or without ' _' is shown whole. The only lines on which the dump fails (with an exception) are those lacking a bracket, containing ' _', whose first plus sign is their last character.", "quantifier": "every line string", "why_tests_cant": "Unbounded strings.", "anchors": ["src/crashhandler_unix.cpp: stackdump"]}
{"id": "C51", "title": "End to end: what LOG emits is what the file contains", "statement": "With the default file sink, after the worker is destroyed the file holds header, every message emitted before the destruction began, formatted, in logging order, and the shutdown line, for every schedule.", "quantifier": "every program of LOG calls from any number of threads, every schedule, every flush interval", "why_tests_cant": "An interleaving test samples a handful of schedules; the claim is about all of them.", "anchors": ["src/g3log.cpp: saveMessage", "src/logworker.cpp: bgSave", "src/filesink.cpp: fileWrite"]}
{"id": "C52", "title": "Everything drains", "statement": "With no new input, worker and sink threads always make progress until every queue is empty; hence every accepted message is eventually delivered and every addSink/removeSink/removeAllSinks/destructor call eventually returns (sink callbacks terminating).", "quantifier": "every reachable state, every fair schedule", "why_tests_cant": "An interleaving test samples a handful of schedules; the claim is about all of them.", "anchors": ["src/logworker.cpp: bgSave", "src/g3log/active.hpp: run, ~Active"]}
{"id": "C53", "title": "Fatal message text", "statement": "The entry flushed for a fatal event contains the user's text, the stack trace, the level name and the reason, in that order.", "quantifier": "every text, trace, level and signal", "why_tests_cant": "Unbounded strings.", "anchors": ["src/g3log.cpp: saveFatalMessage", "src/logworker.cpp: bgFatal", "src/logcapture.cpp: LogCapture"]}
{"id": "C54", "title": "Message text is what was streamed", "statement": "The text stored in the message is everything streamed/printed into the LOG expression in order (up to an embedded NUL).", "quantifier": "every sequence of stream and capturef insertions", "why_tests_cant": "Unbounded sequences.", "anchors": ["src/logcapture.cpp: ~LogCapture, capturef", "src/g3log.cpp: saveMessage"]}
{"id": "C55", "title": "A worker without sinks reports to stderr", "statement": "A message processed while no sink is attached is printed to stderr, and only then.", "quantifier": "every history and schedule", "why_tests_cant": "An interleaving test samples a handful of schedules; the claim is about all of them.", "anchors": ["src/logworker.cpp: bgSave"]}
{"id": "C56", "title": "Log file name", "statement": "The log file name is prefix '.' [id '.'] time '.log'; different ids or prefixes (dot free) or times give different names.", "quantifier": "every prefix, id, time", "why_tests_cant": "Unbounded strings.", "anchors": ["src/filesinkhelper.ipp: createLogFileName"]}
{"id": "C57", "title": "Registry printout lists every level once in ascending order", "statement": "log_levels::to_string() prints one line per registered level in ascending value order with its name, value and status.", "quantifier": "every reachable registry state", "why_tests_cant": "All registry states.", "anchors": ["src/loglevels.cpp: to_string"]}
{"id": "C58", "title": "Default timestamps sort chronologically", "statement": "For in-range broken-down times the default timestamp text and the log-file time stamp have fixed width and their lexicographic order is the chronological order.", "quantifier": "all pairs of broken-down times", "why_tests_cant": "All pairs.", "anchors": ["src/g3log/time.hpp: date_formatted, time_formatted", "src/filesinkhelper.ipp: file_name_time_formatted", "src/time.cpp: put_time"]}
{"id": "C59", "title": "Windows: only known exceptions are intercepted", "statement": "The vectored exception handler ignores any exception code not in its table and reports known ones by name; an exception event unblocks the faulting thread instead of raising a signal.", "quantifier": "every exception code", "why_tests_cant": "All 2^32 codes.", "anchors": ["src/stacktrace_windows.cpp: isKnownException, exceptionIdToText", "src/crashhandler_windows.cpp: vectorExceptionHandling, exitWithDefaultSignalHandler, exitReasonName"]}
{"id": "C60", "title": "Registry behaviour for every history, including LOG at unregistered levels", "statement": "For every history of registry operations and LOG calls without restriction, every answer (logLevel, getStatus) is that of a map from level value to entry in which a LOG at an unregistered level silently creates a disabled entry that carries INFO's name and inner value, which setHighest then treats as INFO.", "quantifier": "every history, every level", "why_tests_cant": "Unbounded histories.", "anchors": ["src/loglevels.cpp: logLevel, setHighest, getStatus"]}
{"id": "C61", "title": "An escaped percent sign in a time format survives", "statement": "In a time format '%%' denotes a literal percent sign, so '%%f' must come out as '%f'.", "quantifier": "every format string and time", "why_tests_cant": "Unbounded strings.", "anchors": ["src/time.cpp: localtime_formatted_fractions, localtime_formatted"]}
{"id": "C62", "title": "A fatal event ends the process", "statement": "Once a fatal event has been raised the process ends (by the fatal signal, after flushing), whatever thread raised it.", "quantifier": "every history and schedule, every thread that may raise the event, sink callbacks included", "why_tests_cant": "An interleaving test samples a handful of schedules; the claim is about all of them.", "anchors": ["src/logworker.cpp: bgFatal, LogWorker::fatal", "src/g3log.cpp: pushFatalMessageToLogger", "src/g3log/active.hpp: ~Active"]}
{"id": "C63", "title": "Windows: a thread that logs has its fatal signals handled", "statement": "After a thread has made a LOG call, SIGABRT, SIGFPE, SIGSEGV, SIGILL and SIGTERM on that thread are handled by g3log.", "quantifier": "every history of LOG calls, installations, exceptions and fatal events on any threads", "why_tests_cant": "Histories of handler changes over several threads.", "anchors": ["src/crashhandler_windows.cpp: installSignalHandlerForThread, restoreFatalHandlingToDefault", "src/logcapture.cpp: LogCapture"]}
{"id": "C64", "title": "Windows: restoring undoes the installation", "statement": "Restoring the fatal handling brings back the unhandled-exception filter that was in force before g3log and removes its vectored handler, however often installCrashHandler was called.", "quantifier": "every state before the installation, one or more installations", "why_tests_cant": "Process-global handler state; depends on call order.", "anchors": ["src/crashhandler_windows.cpp: installCrashHandler, restoreFatalHandlingToDefault"]}
{"id": "C65", "title": "Windows: the stack walk starts at the crash", "statement": "On every supported processor the stack walk starts from the program counter, frame pointer and stack pointer of the given context.", "quantifier": "every context, every processor", "why_tests_cant": "Needs one build and crash per processor.", "anchors": ["src/stacktrace_windows.cpp: captureStackTrace"]}
{"id": "C66", "title": "Windows: only recursive dumps are labelled recursive", "statement": "A stack dump is replaced by the 'Recursive crash detected' notice only if it was requested while another dump of the same thread was in progress.", "quantifier": "every sequence of dumps on a thread", "why_tests_cant": "History dependent thread-local state.", "anchors": ["src/stacktrace_windows.cpp: stackdump"]}
{"id": "C67", "title": "Windows: the stack dump lists the frames", "statement": "A stack dump (when not replaced by the notice of C66) has one line per frame found, numbered consecutively from 0, in order, up to the first null frame and at most 64, each with file, line and name as far as known.", "quantifier": "every stack, every symbol table", "why_tests_cant": "Unbounded stacks and symbol tables.", "anchors": ["src/stacktrace_windows.cpp: stackdump, captureStackTrace, convertFramesToText, getSymbolInformation"]}
{"id": "C68", "title": "The message queue and its thread work down to single lock operations", "statement": "With any number of threads anywhere inside push and wait_and_pop: tasks are run one at a time, each once, in the order in which they entered the queue, which keeps every thread's own order and puts a task whose send has returned before any sent later; nothing hangs: when no step is possible, either the destructor has returned and every task that entered before its final task has run, or everything sent has run; and only boundedly many steps are possible without new calls.", "quantifier": "any number of threads, every interleaving of lock, unlock, wait, spurious wake-up and notify, tasks that send tasks", "why_tests_cant": "An interleaving test samples a handful of schedules; the claim is about all of them.", "anchors": ["src/g3log/active.hpp: run, send, ~Active", "src/g3log/shared_queue.hpp: push, wait_and_pop"]}
{"id": "C69", "title": "A fatal signal is recorded wherever it hits a thread", "statement": "A fatal signal (SIGTERM, SIGABRT, ...) delivered to a thread at any point of a logging call still gets its message to the worker, and other threads can go on logging.", "quantifier": "every point of every logging call, every schedule of the other threads", "why_tests_cant": "Needs a signal at one particular instruction, under every schedule.", "anchors": ["src/crashhandler_unix.cpp: signalHandler", "src/g3log.cpp: pushFatalMessageToLogger", "src/g3log/shared_queue.hpp: push", "src/g3log/active.hpp: send"]}
{"id": "C70", "title": "The log file at the end of a fatal event", "statement": "When a fatal event has ended the process, the log file holds the header, every message accepted before the fatal one and due to the sink, in order, the complete fatal entry, and the shutdown line; no other file has changed.", "quantifier": "every program, every schedule, every flush interval, every moment at which the stream spills", "why_tests_cant": "An interleaving test samples a handful of schedules; the claim is about all of them.", "anchors": ["src/logworker.cpp: bgFatal", "src/g3log.cpp: saveFatalMessage", "src/filesink.cpp: fileWrite, ~FileSink"]}
{"id": "C71", "title": "From the LOG statement to the line in the file", "statement": "For a program of LOG statements and level changes, the file holds one entry per statement whose level was on when it ran, in order, each made of time, level name, file, function and line of the statement and the text streamed into it; a statement at a fatal level ends the process with its entry as the last.", "quantifier": "every program of statements and level changes, every text, every schedule", "why_tests_cant": "An interleaving test samples a handful of schedules; the claim is about all of them.", "anchors": ["src/g3log/g3log.hpp: LOG", "src/logcapture.cpp: LogCapture", "src/loglevels.cpp: logLevel", "src/logworker.cpp: bgSave", "src/filesink.cpp: fileWrite"]}
{"id": "C72", "title": "Every sink gets its own complete copy", "statement": "Each sink's callback is given the complete message exactly once, whatever the other sinks' callbacks do to theirs and in whichever order the threads run; a callback that takes a string is given the default text of the message.", "quantifier": "any number of sinks, every interleaving of the worker with the sink threads, any number of hand-overs, callbacks that change their message arbitrarily", "why_tests_cant": "An interleaving test samples a handful of schedules; the claim is about all of them.", "anchors": ["src/logworker.cpp: bgSave, bgFatal", "src/g3log/sink.hpp: send, Sink::Sink", "src/g3log/moveoncopy.hpp: MoveOnCopy"]}
{"id": "C73", "title": "Windows: printf-style messages are complete or marked as truncated", "statement": "On Windows a LOGF/CHECKF message appears in full if it fits the buffer; otherwise what fits appears followed by '[...truncated...]'; a formatting failure is reported with the format string.", "quantifier": "every formatted text and every configured message size", "why_tests_cant": "The boundary sizes are configuration dependent.", "anchors": ["src/logcapture.cpp: capturef"]}
{"id": "C74", "title": "Simultaneous fatal events are reported like single ones", "statement": "When several threads raise fatal events at the same time, the pre-fatal hook runs once and before any of the messages is handed over, each message is handed over complete and none is labelled a recursive crash.", "quantifier": "any number of threads, every interleaving", "why_tests_cant": "An interleaving test samples a handful of schedules; the claim is about all of them.", "anchors": ["src/g3log.cpp: saveFatalMessage, setFatalPreLoggingHook"]}
{"id": "C75", "title": "A message logged while another thread initialises logging is neither lost nor harmful", "statement": "While one thread is inside initializeLogging any number of other threads may LOG: no message is lost (except early messages after the first, which are dropped by design), none is delivered twice, and no thread reads freed or null memory.", "quantifier": "any number of logging threads, every interleaving of their memory accesses with initializeLogging and the background thread", "why_tests_cant": "An interleaving test samples a handful of schedules; the claim is about all of them.", "anchors": ["src/g3log.cpp: initializeLogging, pushMessageToLogger"]}
{"id": "C76", "title": "A time stamp is complete for every time format", "statement": "localtime_formatted returns the complete expansion of the time format, whatever its length and whatever it expands to, and never ends the process.", "quantifier": "every time from the epoch on, every format, debug and release builds, every local time with valid fields", "why_tests_cant": "Only a handful of formats can be tried, and the outcome depends on the build type and on the length of the expansion.", "anchors": ["src/time.cpp: put_time, localtime_formatted"]}
{"id": "C77", "title": "Levels can be switched and listed while other threads log", "statement": "With dynamic levels, the functions of g3::log_levels and LOG may be used from any number of threads at the same time: no data race, LOG at one level is not disturbed by switching another, and one thread's switches have the effect they have alone.", "quantifier": "any registered levels, any number of threads and calls, every interleaving of their memory accesses", "why_tests_cant": "An interleaving test samples a handful of schedules; the claim is about all of them.", "anchors": ["src/loglevels.cpp: logLevel, set, setHighest, disableAll, enableAll, getAll, getStatus", "src/g3log/atomicbool.hpp"]}
{"id": "C78", "title": "File sinks do not disturb each other", "statement": "Any number of file sinks may be used at the same time: each one's file holds its own header, entries and shut down line, as if it were the only sink, and no entry of another sink is lost.", "quantifier": "any number of sinks, every interleaving of their operations, every moment at which a stream spills", "why_tests_cant": "Depends on the second in which each sink is built and on the interleaving of their threads.", "anchors": ["src/filesink.cpp: FileSink, ~FileSink, fileWrite, changeLogFile", "src/filesinkhelper.ipp: createLogFileName, openLogFile", "src/logworker.cpp: addDefaultLogger"]}
{"id": "C79", "title": "A second fatal event does not cut off the report of the first", "statement": "Once a fatal event has been handed to the logger, every message accepted before it and the fatal message itself reach the sinks before the process ends, also if further fatal events (LOG(FATAL), failed CHECK, fatal signals) happen on other threads meanwhile.", "quantifier": "any number of threads and messages, any number and kind of fatal events, every interleaving, whatever raising a signal does", "why_tests_cant": "An interleaving test samples a handful of schedules; the claim is about all of them.", "anchors": ["src/g3log.cpp: pushFatalMessageToLogger", "src/logworker.cpp: bgFatal", "src/crashhandler_unix.cpp: signalHandler, exitWithDefaultSignalHandler"]}
{"id": "C80", "title": "A fatal statement never returns", "statement": "LOG(FATAL), a failed CHECK and the signal handler never return to the program, and the process is ended once.", "quantifier": "any number of threads and fatal events, every interleaving, whatever raising a signal does", "why_tests_cant": "An interleaving test samples a handful of schedules; the claim is about all of them.", "anchors": ["src/g3log.cpp: pushFatalMessageToLogger", "src/crashhandler_unix.cpp: signalHandler, exitWithDefaultSignalHandler, gBlockForFatal"]}
{"id": "C81", "title": "A write error costs no more than the entries concerned", "statement": "When a log file cannot be written for a while (disk full, quota, I/O error), the log keeps what it had, and entries logged once writing works again are in the file.", "quantifier": "every history of messages, formatter, header and file changes; every flush interval; errors at any transfers, after any number of characters, with any treatment of the characters concerned by the stream library", "why_tests_cant": "Needs a file system that fails at chosen moments; the outcome depends on how many characters were taken and on the stream library.", "anchors": ["src/filesink.cpp: fileWrite, changeLogFile, ~FileSink"]}
{"id": "C82", "title": "A file sink that cannot create its file is reported or harmless", "statement": "If a file sink can create its file neither in the requested directory nor in the working directory, the program is told so or the sink discards its messages.", "quantifier": "release builds (NDEBUG); every prefix, directory, file system and every sequence of operations on the sink", "why_tests_cant": "All uses of a sink that has no file would have to be tried, and what happens is undefined behaviour.", "anchors": ["src/filesink.cpp: FileSink, fileWrite, changeLogFile, ~FileSink", "src/filesinkhelper.ipp: filestream"]}
{"id": "C83", "title": "A sink that hangs holds up nobody else", "statement": "A sink whose callback does not return delays neither the threads that log nor any other sink: logging any number of messages completes without a step of any worker or sink thread, and every other sink receives everything it is to receive.", "quantifier": "For every history of logging, adding, removing and destroying by any number of threads, every set of hanging sinks and every schedule.", "why_tests_cant": "An interleaving test samples a handful of schedules; the claim is about all of them.", "anchors": ["src/logworker.cpp: LogWorkerImpl::bgSave, LogWorkerImpl::bgFatal, LogWorker::removeSink, LogWorker::removeAllSinks", "src/g3log/sink.hpp: send", "src/g3log/active.hpp: Active::~Active"]}
{"id": "C84", "title": "LOG statements of several threads: every line complete, once, in the order of its thread", "statement": "When any number of threads run LOG statements and level changes, then after the destruction of the worker the log file holds exactly one complete line for every statement whose level was on when its thread reached it, and the lines of each thread are in the order of its program.", "quantifier": "any number of threads, every program of LOG statements and level changes at registered levels (no fatal ones), every schedule of level tests, level changes, hand-overs, worker and sink threads; every flush interval", "why_tests_cant": "An interleaving test samples a handful of schedules; the claim is about all of them.", "anchors": ["src/g3log/g3log.hpp: LOG", "src/logcapture.cpp: ~LogCapture", "src/g3log.cpp: saveMessage, pushMessageToLogger", "src/loglevels.cpp: logLevel", "src/logworker.cpp: bgSave", "src/filesink.cpp: fileWrite"]}
{"id": "C85", "title": "exit() ends the process and keeps the log", "statement": "When main returns, a thread calls exit(), or a fatal event happens, the process ends, and the sinks have got everything that was logged before: with a LogWorker of static storage duration as well as with one that main owns, and also in a process that survives the raised signal, such as PID 1 of a container.", "quantifier": "all programs, threads, schedules, signals, both kinds of LogWorker, both effects of raising a signal", "why_tests_cant": "A hang that needs PID 1, a static LogWorker and a fatal event cannot be seen by a unit test, and losing messages at exit() depends on how far the background threads have got; only a proof covers all schedules.", "anchors": ["src/crashhandler_unix.cpp: exitWithDefaultSignalHandler", "src/logworker.cpp: LogWorker::~LogWorker, bgFatal", "src/g3log.cpp: pushFatalMessageToLogger, shutDownLoggingForActiveOnly", "src/g3log/active.hpp: ~Active"]}
{"id": "C86", "title": "An exception thrown inside a logging statement reaches the caller", "statement": "If evaluating an operand of a LOG, LOG_IF, LOGF or CHECK statement throws, the exception reaches the caller of the statement; operands before the throwing one have been evaluated once and in order, none after it; the entry is logged once, with the text streamed up to that point (nothing is logged if the condition of LOG_IF or CHECK throws, or the level is off).", "quantifier": "every list of operands with arbitrary side effects and exceptions, every level, every state of the logger", "why_tests_cant": "Operands, side effects and points of failure are unbounded.", "anchors": ["src/g3log/g3log.hpp: LOG, LOG_IF, CHECK, LOGF", "src/logcapture.cpp: ~LogCapture", "src/g3log.cpp: saveMessage, pushMessageToLogger, saveFatalMessage"]}
{"id": "C87", "title": "Everything streamed into a statement is in its message", "statement": "The message of LOG(level) << a << b << ... consists of the texts of all operands, in order.", "quantifier": "every list of operands, including those that leave the stream in a failed state", "why_tests_cant": "Operands are unbounded.", "anchors": ["src/g3log/logcapture.hpp: stream", "src/logcapture.cpp: ~LogCapture"]}
{"id": "C88", "title": "what a thread did before it logged is visible in the sink", "statement": "Logging hands over memory, not only messages. Whatever a thread did before it logged (or sent any call to a sink) happens before, in the sense of the C++ memory model, everything the worker does with the message and everything a sink's callback does with it, through both queues. When get() on the future of a call returns, everything that the sink's thread did up to the end of the call is visible to the caller, and when the destructor of a sink or of the worker has returned, everything that the thread behind it ever did is visible to the thread that called the destructor. User types held through pointers or references in a sink therefore need no locks of their own for this use.", "quantifier": "for every number of objects and threads, every schedule of their lock, unlock, wait, wake-up and notify operations, including spurious wake-ups, and every reachable event trace", "why_tests_cant": "An interleaving test samples a handful of schedules; the claim is about all of them.", "anchors": ["src/g3log/active.hpp: Active::send, run, ~Active", "src/g3log/shared_queue.hpp: push, wait_and_pop", "src/g3log/sink.hpp: Sink::send, Sink::async", "src/g3log/logworker.hpp: LogWorkerImpl", "src/logworker.cpp: LogWorker::save"]}
{"id": "C89", "title": "no data race between threads that log, the worker and the sinks", "statement": "Of two accesses to the memory of a queue, or to the flag that ends the loop of a background thread, one always happens before the other. If every other thread that used an object has been joined by the thread that destroys it, or its use otherwise happens before the call of the destructor, as the documentation asks for, then nothing races with the destruction either. The condition is necessary: without it the notify_one at the end of a LOG call and the destruction of the queue can be unordered although the message has been processed.", "quantifier": "for every number of objects and threads and every schedule of their lock, unlock, wait, wake-up and notify operations", "why_tests_cant": "An interleaving test samples a handful of schedules; the claim is about all of them.", "anchors": ["src/g3log/shared_queue.hpp: push, wait_and_pop, m_, data_cond_", "src/g3log/active.hpp: done_, ~Active", "docs/g3log_usage.md: Destruction of the logger should happen AFTER shutdown of other threads"]}
{"id": "C90", "title": "which functions may be called at the same time", "statement": "The functions of the library are safe to call from several threads: LOG, LOGF, LOG(FATAL), CHECK and fatal signals, initializeLogging, shutting down, setFatalPreLoggingHook, setFatalExitHandler, setMaxMessageSize, overrideSetupSignals and restoreSignalHandler, called on any threads at any time, do not race on the library's global state.", "quantifier": "every program whose threads call these functions, start and join threads; every number of threads; every schedule of the single memory accesses, locks and once-flags", "why_tests_cant": "A data race shows up only in particular schedules and, if at all, under a race detector; the absence of one for a pair of functions needs all schedules of all programs.", "anchors": ["src/g3log.cpp: initializeLogging, setFatalPreLoggingHook, setFatalExitHandler, shutDownLogging, saveFatalMessage, pushMessageToLogger, pushFatalMessageToLogger", "src/crashhandler_unix.cpp: installSignalHandler, exitWithDefaultSignalHandler, restoreSignalHandler, overrideSetupSignals", "src/logcapture.cpp: setMaxMessageSize, capturef", "src/logworker.cpp: bgFatal"]}
{"id": "C91", "title": "A sink whose callback throws does not hang the process and costs the other sinks nothing", "statement": "If the callback of a sink throws an exception, the process ends, as after any uncaught exception, after a report of this has been logged and after every other sink has processed every message logged before. Until a callback throws, everything is as without exceptions.", "quantifier": "For all programs, schedules, numbers of sinks and messages, all patterns of exceptions (which may depend on what the sink has processed before), with and without SIGABRT among the signals handled.", "why_tests_cant": "A test can let one sink throw once and watch for a while. It cannot show that the process never ends under any continuation, nor what the other sinks have at that moment in every schedule, and how the outcome depends on other exceptions and on where the worker is.", "anchors": ["src/g3log/sink.hpp: Sink::send", "src/g3log/active.hpp: run", "src/crashhandler_unix.cpp: signalHandler, shouldDoExit, exitWithDefaultSignalHandler", "src/g3log.cpp: pushFatalMessageToLogger", "src/logworker.cpp: bgFatal, ~LogWorker"]}
{"id": "C92", "title": "With several threads, a fatal statement ends the program only after everything logged before is in the file", "statement": "Any number of threads log and change levels; some of their statements are fatal. After the first fatal statement the process ends, the log file holds the header, the line of every statement completed before on any thread, each thread in its order, then the entry of the fatal statement with its text and stack dump, then the line about the shutdown. The entry carries the note about a recursive crash only if there was one. What other threads do meanwhile (further ordinary statements, further fatal ones) does not change that.", "quantifier": "For all programs on any number of threads, all schedules of these threads, the worker and the sink, all statements, levels, texts and time stamps, all file states, and all moments at which the stream writes out by itself.", "why_tests_cant": "An interleaving test samples a handful of schedules; the claim is about all of them.", "anchors": ["src/g3log.cpp: pushMessageToLogger, saveFatalMessage, pushFatalMessageToLogger, isLoggingInitialized", "src/logworker.cpp: bgFatal, save, fatal", "src/logcapture.cpp: ~LogCapture", "src/filesink.cpp: fileWrite"]}
{"id": "C93", "title": "Any number of threads may be anywhere inside the queues: nothing is lost, doubled, reordered or used after its destruction, and no wake-up is missed", "statement": "Any number of threads use one log worker at the same time: they log, add and remove sinks, call sinks through handles and give handles up; the worker thread and the threads of the sinks run alongside, and one thread may destroy the worker. Each of them can be interrupted between any two operations on the locks and condition variables of the queues. Every observable state is one that is also reached if each hand-over of a task is a single indivisible action. Every message handed over is in the queue exactly once or its thread is still inside the hand-over. If one message was handed over completely before another was begun, on whatever threads, each sink receives them in that order. No thread touches the queue of a destroyed sink. No thread touches the queue of the destroyed worker unless it was inside a call on the worker while the worker was being destroyed. Without a new action of the program and without spurious wake-ups the threads come to rest after finitely many steps, however they are scheduled; then each sink has received exactly what it must, all calls have returned and all queues are empty, unless a fatal event has ended the process or holds up a sink.", "quantifier": "For all numbers of threads, sinks and handles, all programs, and all schedules of single lock, unlock, wait, notify and spurious wake-up steps.", "why_tests_cant": "An interleaving test samples a handful of schedules; the claim is about all of them.", "anchors": ["src/logworker.cpp: LogWorker::~LogWorker, save, fatal, addWrappedSink", "src/g3log/logworker.hpp: addSink, removeSink, removeAllSinks", "src/g3log/sink.hpp: Sink", "src/g3log/active.hpp: Active", "src/g3log/shared_queue.hpp: push, wait_and_pop"]}
{"id": "C94", "title": "A sink may use the logger from its callbacks: it never waits for ever and the process is not ended by it", "statement": "The code of a sink, while it handles a message or a call, may itself log, call this or other sinks through handles, wait for the results, add sinks and remove sinks. Whatever it does there, every sink receives what it must in the right order, every call returns once the program gives no more input, no group of threads (the worker and the threads of the sinks) waits for each other in a circle, and the process is not ended by std::terminate.", "quantifier": "For all numbers of sinks and threads, all programs of the callbacks and of the clients, and all schedules.", "why_tests_cant": "An interleaving test samples a handful of schedules; the claim is about all of them.", "anchors": ["src/g3log/sink.hpp: Sink::~Sink, Sink::async", "src/g3log/sinkhandle.hpp: SinkHandle::call", "src/g3log/active.hpp: Active::~Active", "src/g3log/logworker.hpp: addSink, removeSink, removeAllSinks", "src/g3log/future.hpp: spawn_task"]}
{"id": "C95", "title": "What the file sink says on stderr is true and tells where the log is", "statement": "Everything the default file sink writes to stderr is so: an illegal prefix is reported with its offending character, a prefix is called empty only if nothing is left of it, a file that cannot be opened is named, use of the current directory is announced, every failed change of the log file names the file asked for, and at the end the file in use is named, which is the one that the log ends in. Nothing is written when all goes well.", "quantifier": "For all prefixes, directories, identifiers, outcomes of opening files, and all sequences of operations of the sink.", "why_tests_cant": "Tests look at the log file, not at stderr, and try one or two prefixes; which lines appear in every combination of causes is not covered by any test.", "anchors": ["src/filesink.cpp: FileSink::FileSink, ~FileSink, changeLogFile", "src/filesinkhelper.ipp: isValidFilename, prefixSanityFix, openLogFile, createLogFile"]}
{"id": "C96", "title": "A signal handler that the system refuses is reported under its own name", "statement": "Whenever the system refuses to install or to restore the handler of a signal, stderr gets one line that names this signal, and nothing is written about handlers that are accepted. A refused attempt can be repeated. The function that writes error messages returns how many characters it wrote. Before the process ends, stderr names the level and the signal.", "quantifier": "For all sets of signals, all sequences of calls that install, override, restore or exit, and all answers of the system to every single call; on Windows for all threads and all answers by signal.", "why_tests_cant": "A test cannot make sigaction or signal fail at chosen calls, and the failure path is not run by any test.", "anchors": ["src/crashhandler_unix.cpp: installSignalHandler, restoreSignalHandler, overrideSetupSignals, exitWithDefaultSignalHandler, writeErrorMessage, signalToStr", "src/crashhandler_windows.cpp: restoreFatalHandlingToDefault, installSignalHandlerForThread, writeErrorMessage"]}
{"id": "C97", "title": "Windows: after an exception that the program handles itself, logging works as before", "statement": "On Windows an exception does not end the process. Its report, and everything logged before it, reaches every attached sink; the thread that raised it continues only afterwards. Then the program goes on, and what it logs reaches its sinks as before. A fatal event that is no exception still ends the process, and the thread that raised it never continues.", "quantifier": "For all schedules of any number of client threads, the worker thread, the threads of the sinks and the destructor of the worker, and all sets of messages that are reports of exceptions.", "why_tests_cant": "An interleaving test samples a handful of schedules; the claim is about all of them.", "anchors": ["src/g3log.cpp: pushFatalMessageToLogger", "src/logworker.cpp: LogWorkerImpl::bgFatal", "src/crashhandler_windows.cpp: exitWithDefaultSignalHandler, unexpectedExceptionHandling"]}
{"id": "C98", "title": "The log file may be changed while other threads log: no line is lost, doubled or torn, and it is in the file of its time", "statement": "The file of a sink is changed through its handle, any number of times and from any thread, while other threads log. Every line is in exactly one of the files, complete; read one after the other, the files have the lines in the order of logging. A line logged after a change has been carried out is in the new file or a later one, a line logged before the change was asked for is in the old file or an earlier one.", "quantifier": "For all schedules of the threads that log, the threads that use the handle, the worker thread and the threads of the sinks; all numbers of changes; all flush intervals; until the destruction of the worker or a fatal event; file names all different and no client keeps the sink alive at the end.", "why_tests_cant": "An interleaving test samples a handful of schedules; the claim is about all of them.", "anchors": ["src/filesink.cpp: changeLogFile, fileWrite", "src/g3log/sink.hpp: send, async", "src/logworker.cpp: LogWorkerImpl::bgSave", "src/g3log/sinkhandle.hpp: call"]}
{"id": "C99", "title": "A logging statement is one statement, wherever it stands", "statement": "LOG, LOG_IF, LOGF, LOGF_IF, CHECK, CHECKF and CHECK_F can be used wherever C++ allows a statement, with or without braces: in branches of if and else, in loops, after labels. Every else stays with the if of the program it was written for, the program is accepted by the compiler exactly if it is right as written, and it does what it would do if every logging statement were a call of a function.", "quantifier": "For all programs made of expressions, blocks, if, else, loops and logging statements, nested in any way; all meanings of the expressions, with side effects.", "why_tests_cant": "There are infinitely many programs; a test contains some.", "anchors": ["src/g3log/g3log.hpp: LOG, LOG_IF, LOGF, LOGF_IF, CHECK, CHECKF, CHECK_F"]}
{"id": "C100", "title": "A message has the level that was tested", "statement": "A logging statement evaluates its level once: a message is logged only if the level it carries was found enabled.", "quantifier": "For all level expressions, with side effects or changed by other code between evaluations; all registries.", "why_tests_cant": "Tests use constant levels.", "anchors": ["src/g3log/g3log.hpp: LOG, LOG_IF, LOGF, LOGF_IF"]}
{"id": "C101", "title": "Static objects may log", "statement": "LOG can be used in constructors and destructors of objects with static storage duration, before main and after it: before initializeLogging it does what it does in main, and after shutDownLogging it is harmless, whatever the order in which the linker puts the objects of program and library.", "quantifier": "For all programs with any number of static objects that call any functions of the library in constructors, destructors and main; all orders of construction; builds with and without dynamic levels.", "why_tests_cant": "The order is chosen by the linker; a test executable has one.", "anchors": ["src/loglevels.cpp: wasFatal, g_log_levels", "src/g3log/loglevels.hpp: constants", "src/g3log.cpp: g_fatal_pre_logging_hook, g_fatal_to_g3logworker_function_ptr", "src/crashhandler_unix.cpp: gSignals"]}
{"id": "C102", "title": "A forked child can log, change sinks, end and crash as its parent could", "statement": "After fork the child can go on using the library: what it logs reaches the sinks, addSink, removeSink and removeAllSinks return, destroying the worker ends logging in the child, and a fatal event ends the child.", "quantifier": "For all states of the worker, its queue and its sinks at the moment of the fork, all behaviour of the threads of the child afterwards, all schedules.", "why_tests_cant": "An interleaving test samples a handful of schedules; the claim is about all of them.", "anchors": ["src/logworker.cpp: LogWorker::save, fatal, addWrappedSink, ~LogWorker", "src/g3log/active.hpp: Active::send", "src/g3log/shared_queue.hpp: push", "src/g3log/future.hpp: spawn_task", "src/g3log.cpp: initializeLogging, shutDownLogging"]}
{"id": "C103", "title": "Without memory or threads each call does its job or throws and changes nothing, and the process survives", "statement": "If a request for memory or for a thread fails inside createLogWorker, addSink, removeSink, removeAllSinks, a LOG statement or the destruction of the worker, that call either has done what it is for and returns, or throws and everything is as before; the process goes on, and neither threads nor sinks leak.", "quantifier": "For all sequences of calls, all numbers of sinks, all sets of failing requests, all texts, arguments of LOG that throw and such that do not.", "why_tests_cant": "The requests that fail depend on the state of the whole machine; a test would have to let each single request fail, in each combination, in each state, and it can hardly see what happens in a destructor or on the thread of the worker.", "anchors": ["src/g3log/logworker.hpp: addSink, removeSink, removeAllSinks", "src/logworker.cpp: ~LogWorker, bgSave, save, addWrappedSink, createLogWorker", "src/g3log/active.hpp: createActive, ~Active", "src/g3log/sink.hpp: Sink constructors, ~Sink, send", "src/g3log/future.hpp: spawn_task", "src/logcapture.cpp: ~LogCapture", "src/g3log.cpp: saveMessage, pushMessageToLogger"]}
{"id": "C104", "title": "An illegal initialisation ends the process with a failure status and keeps the log", "statement": "If initializeLogging is called with nullptr, or while a worker is in use, the process ends with EXIT_FAILURE, and what was logged before is with the sinks; of several threads that initialise at the same time exactly one succeeds.", "quantifier": "For all numbers of threads and workers, all workers with and without static storage duration, all sequences of initialisations, shut downs, LOG calls and destructions of workers, all schedules.", "why_tests_cant": "An interleaving test samples a handful of schedules; the claim is about all of them.", "anchors": ["src/g3log.cpp: initializeLogging, shutDownLogging, shutDownLoggingForActiveOnly", "src/logworker.cpp: ~LogWorker"]}
{"id": "C105", "title": "An initializeLogging that throws for lack of memory can simply be called again", "statement": "If initializeLogging throws because there is no memory and the program calls it again until it returns, then the worker is in use, the message logged before is with it, the fatal signals are caught, and a fatal signal still ends the process by the former disposition of the signal.", "quantifier": "For all sets of signals, all former dispositions, all signals that the kernel refuses, with and without an earlier message, all patterns of failing requests for memory, any number of calls that throw.", "why_tests_cant": "Failures of single allocations inside the library are not provoked by tests; the damage only shows when the process crashes much later.", "anchors": ["src/g3log.cpp: initializeLogging", "src/crashhandler_unix.cpp: installSignalHandler, exitWithDefaultSignalHandler", "src/logworker.cpp: save"]}
{"id": "C106", "title": "A call through a sink handle is made with the arguments of the time of the call", "statement": "A method called through a sink handle gets its arguments as they are when `call` is called: the caller may change, reuse or destroy its objects as soon as `call` has returned, and the method changes none of them. A call through a handle whose sink is gone leaves the arguments untouched.", "quantifier": "For all methods, all numbers and kinds of arguments (objects, temporaries, moved objects, literals, pointers, arrays, std::ref), all interleavings of the program with the thread of the sink, any number of calls and sinks removed at any time.", "why_tests_cant": "An interleaving test samples a handful of schedules; the claim is about all of them.", "anchors": ["src/g3log/sinkhandle.hpp: SinkHandle::call", "src/g3log/sink.hpp: async", "src/g3log/future.hpp: spawn_task"]}
{"id": "C107", "title": "What g3log writes of itself does not depend on the program's locale", "statement": "The parts of an entry that g3log adds to the message (time stamp, level, thread id, file, function, line) and the numbers in the report of a fatal signal (signal, process id, codes, frames of the stack) read the same whatever std::locale the program has made the global one, and whenever it does so.", "quantifier": "For all punctuations of numbers (separator and grouping), all numbers, all messages, both formats of the library, all time formats of numeric conversions, and all interleavings of std::locale::global with logging and the thread of the sink.", "why_tests_cant": "An interleaving test samples a handful of schedules; the claim is about all of them.", "anchors": ["src/logmessage.cpp: threadID, DefaultLogDetailsToString, FullLogDetailsToString, toString", "src/crashhandler_unix.cpp: signalHandler, exitReasonName, stackdump", "src/filesink.cpp: fileWrite"]}
{"id": "C108", "title": "A fatal statement ends the process also when memory is short", "statement": "LOG(FATAL) or a failed CHECK ends the process by its signal, after the pre-fatal hook has been called and every attached sink has got the report, even if requests for memory fail on the way; if it cannot, it leaves everything as it was, so that the next fatal statement is reported like a first one.", "quantifier": "For all sets of failing requests, all numbers of sinks, with and without initialised logging, a hook, an earlier fatal statement, arguments that throw; and for all programs of LOG and fatal statements, calls through handles and changes of sinks.", "why_tests_cant": "The requests that fail depend on the state of the whole machine; a test would have to let each single request fail, in each combination, in a statement that ends the process of the test.", "anchors": ["src/g3log.cpp: saveMessage, saveFatalMessage, pushFatalMessageToLogger, fatalCall, setFatalPreLoggingHook", "src/logcapture.cpp: LogCapture::LogCapture, ~LogCapture", "src/logworker.cpp: bgFatal, fatal"]}
{"id": "C109", "title": "A call through a sink handle is made once and its future has the result, or it throws and is not made, also without memory", "statement": "If a request for memory fails inside SinkHandle::call, the call throws and is not made; otherwise it returns a future: if the sink is there, the call is made once and the future has its result, if not, the future holds bad_weak_ptr. Either way sinks, handles, log messages and other calls are not affected and the process goes on.", "quantifier": "For all sets of failing requests, all states, all handles, and all programs of calls, LOG and fatal statements and changes of sinks.", "why_tests_cant": "The requests that fail depend on the state of the whole machine; a test would have to let each single request fail in each state, and to show that nothing else has changed.", "anchors": ["src/g3log/sinkhandle.hpp: SinkHandle::call", "src/g3log/sink.hpp: async", "src/g3log/future.hpp: spawn_task"]}
{"id": "C110", "title": "The destructor of a sink may use the library", "statement": "When a sink is destroyed, its destructor may log: the entry is delivered to every sink that is attached when its turn comes (or, without sinks, to stderr), and the destructor is not delayed. It may also call addSink, removeSink or removeAllSinks, and these calls return.", "quantifier": "For all numbers of sinks and clients, all threads on which a sink can be destroyed (by the worker thread in removeSink, removeAllSinks or after a fatal event, by the destructor of the worker, by a client that gives up the last reference), all points of the destructor, and all schedules.", "why_tests_cant": "An interleaving test samples a handful of schedules; the claim is about all of them.", "anchors": ["src/g3log/sink.hpp: ~Sink", "src/g3log/logworker.hpp: removeSink, removeAllSinks", "src/logworker.cpp: ~LogWorker, bgFatal", "src/g3log.cpp: pushMessageToLogger, shutDownLogging, shutDownLoggingForActiveOnly"]}
{"id": "C111", "title": "Fatal events in the destructors of sinks", "statement": "A fatal LOG, a failed CHECK, a signal or an exception in the destructor of a sink ends the process, after every attached sink has processed everything that was logged before and the report of the event.", "quantifier": "For all numbers of sinks and clients, all threads on which a sink can be destroyed, all fatal events in one or more destructors, and all schedules.", "why_tests_cant": "An interleaving test samples a handful of schedules; the claim is about all of them.", "anchors": ["src/g3log/sink.hpp: ~Sink", "src/g3log.cpp: pushFatalMessageToLogger", "src/crashhandler_unix.cpp: signalHandler, shouldDoExit", "src/logworker.cpp: ~LogWorker, bgFatal", "src/g3log/logworker.hpp: removeSink, removeAllSinks"]}
{"id": "C112", "title": "A pre-fatal hook may use the library", "statement": "A hook set with setFatalPreLoggingHook may clean up with the means of the library: it may log, add and remove sinks, shut logging down or destroy the worker. Its own entries and the report of the event reach the sinks that are attached when the event happens and that the hook does not remove, and the process ends.", "quantifier": "For all hooks (any sequence of these steps), all programs with one worker and any number of sinks and clients, all moments of the event on the thread of a client, and all schedules of the other threads.", "why_tests_cant": "An interleaving test samples a handful of schedules; the claim is about all of them.", "anchors": ["src/g3log.cpp: saveFatalMessage, setFatalPreLoggingHook, pushMessageToLogger, pushFatalMessageToLogger, shutDownLogging", "src/logworker.cpp: ~LogWorker, bgFatal", "src/g3log/logworker.hpp: addSink, removeSink, removeAllSinks", "docs/API.md: Pre fatal hook"]}
{"id": "C113", "title": "Entries of the log are in the order of their time stamps", "statement": "The entries that the sinks receive come in the order of their time stamps; a later entry never has an earlier stamp.", "quantifier": "For all numbers of threads and statements, operands and hooks that log themselves, all moments of initializeLogging and shutDownLogging, all behaviour of the clock, and all schedules.", "why_tests_cant": "An interleaving test samples a handful of schedules; the claim is about all of them.", "anchors": ["src/logcapture.cpp: ~LogCapture", "src/logmessage.cpp: LogMessage::LogMessage", "src/g3log.cpp: initializeLogging, saveMessage, pushMessageToLogger, saveFatalMessage, pushFatalMessageToLogger", "src/logworker.cpp: save, fatal"]}
{"id": "C114", "title": "Changing the handled signals leaves no gap", "statement": "While the set of handled signals is changed, a signal that is in the old set and in the new one is handled at every moment; and a signal that is handled at the moment it arrives is logged and then ends the process by its original action, at whatever point of the change it arrives.", "quantifier": "For all original actions of the signals, all sets of signals the system accepts, all orderly histories of calls before, all old and new sets, and all moments of the call.", "why_tests_cant": "A test cannot send a signal between two system calls of a library function; the windows are a few instructions wide and must be found for every pair of sets.", "anchors": ["src/crashhandler_unix.cpp: overrideSetupSignals", "src/crashhandler_unix.cpp: restoreSignalHandler", "src/crashhandler_unix.cpp: installSignalHandler", "src/crashhandler_unix.cpp: exitWithDefaultSignalHandler", "src/crashhandler_unix.cpp: signalHandler"]}
{"id": "C115", "title": "Windows: an exception is reported once if it is fatal, and a fatal signal always, in every build", "statement": "On Windows an exception that nobody handles is reported exactly once and one that the program handles itself is not reported; a fatal signal is reported and raised again; and the build option that switches fatal signal handling off leaves the handlers of the process alone. In every combination of the build options.", "quantifier": "For all combinations of the three build options, all exception codes, all handlers that were there before, all threads that have logged, with and without a debugger, handled by the program or not.", "why_tests_cant": "Needs every combination of build options on Windows, each with crashes that end the test process.", "anchors": ["src/crashhandler_windows.cpp: installCrashHandler", "src/crashhandler_windows.cpp: restoreFatalHandlingToDefault", "src/crashhandler_windows.cpp: vectorExceptionHandling, unexpectedExceptionHandling, exceptionHandling", "src/crashhandler_windows.cpp: signalHandler", "src/crashhandler_windows.cpp: exitWithDefaultSignalHandler", "Options.cmake: ENABLE_FATAL_SIGNALHANDLING, ENABLE_VECTORED_EXCEPTIONHANDLING, DEBUG_BREAK_AT_FATAL_SIGNAL"]}
{"id": "C116", "title": "A time stamp identifies the moment, and the log file of an earlier run is not overwritten", "statement": "The stamps of entries are in the order of the moments and different moments have different stamps, to the microsecond; a program that is started again later does not overwrite the log file of its earlier run.", "quantifier": "For all moments, all time zones (any rule for the difference to UTC), all calendar dates from 1970 to 9999, all prefixes, directories and ids.", "why_tests_cant": "Time zone rules and years of dates cannot be enumerated; the failing moments occur for one hour a year.", "anchors": ["src/time.cpp: localtime_formatted", "src/time.cpp: localtime_formatted_fractions", "src/filesinkhelper.ipp: createLogFileName", "src/filesinkhelper.ipp: openLogFile", "src/filesink.cpp: FileSink"]}
{"id": "C117", "title": "The entries can be read back from a log file, and no message can pass for another entry", "statement": "A reader that takes each line of a log file apart gets back exactly the entries that were logged, in order, with their stamp, level, file, function, line and text, whatever the texts of the messages are.", "quantifier": "For all sequences of messages, all texts, flush intervals, prefixes and directories.", "why_tests_cant": "Texts of messages are unlimited; tests check that what was logged can be found in the file, not that nothing else can be read from it.", "anchors": ["src/logmessage.cpp: toString", "src/logmessage.cpp: LogDetailsToString", "src/logmessage.cpp: normalToString", "src/filesink.cpp: fileWrite", "src/filesink.cpp: addLogFileHeader", "src/filesink.cpp: ~FileSink"]}
{"id": "C118", "title": "Messages that wait take a bounded amount of memory and logging never waits for a sink", "statement": "A LOG statement does not wait for the worker or a sink, and the number of messages kept in memory does not exceed a number given in advance.", "quantifier": "For all schedules of any number of threads, all numbers of sinks and messages.", "why_tests_cant": "The limit of memory is not reached in a test; the claim is about executions of every length and about every relation of the speeds of the threads.", "anchors": ["src/g3log/logworker.hpp: save", "src/logworker.cpp: save", "src/logworker.cpp: bgSave", "src/g3log/sink.hpp: send", "src/g3log/shared_queue.hpp: push", "src/g3log/active.hpp: send"]}
{"id": "C119", "title": "Logging can be shut down and started again, and the new life is like the first one of a new process", "statement": "After logging has been shut down, it can be initialised again with a new worker. From then on the program behaves as in a new process: no message, hook or count of fatal events of the earlier life has any effect, messages go to the new worker and crash handling is in place.", "quantifier": "For all histories of calls before and after the second initialisation, including hooks that log, raise fatal events or set further hooks, and fatal events survived by the exit handler.", "why_tests_cant": "The claim relates every history of a second life to that of a new process; a test process has been through a few particular histories and its static variables cannot be reset.", "anchors": ["src/g3log.cpp: initializeLogging", "src/g3log.cpp: shutDownLogging", "src/g3log.cpp: pushMessageToLogger", "src/g3log.cpp: saveFatalMessage"]}
{"id": "C120", "title": "The options chosen for the build of the library hold in every program that includes its headers", "statement": "A program that includes the headers and does not itself define macros of the library is compiled with exactly the features chosen when the library was built: dynamic levels, size of messages, file names, handling of signals and exceptions, text of the function name, name of the debug level. A new run of the build tool with the same choice changes nothing, one with another choice always takes effect, whatever header was there before. A program with a macro of the name of the debug level is refused.", "quantifier": "For all choices of options, all compilers, all macros of the program and all earlier contents of the generated header.", "why_tests_cant": "Every build of the tests has one choice of options; that no two choices are confused and that old headers never survive is a statement about all pairs of them.", "anchors": ["Options.cmake: G3_DEFINITIONS", "GenerateMacroDefinitionsFile.cmake: generated_content", "src/g3log/loglevels.hpp: CHANGE_G3LOG_DEBUG_TO_DBUG", "src/g3log/g3log.hpp: G3LOG_PRETTY_FUNCTION"]}
{"id": "C121", "title": "A crash inside a pre-fatal hook is reported as a recursive crash, and the process ends", "statement": "When a fatal event has been detected and the pre-fatal hook itself crashes, the worker still receives exactly one fatal message, marked as a recursive crash with the stack dump of the first event, the log is flushed and the process ends.", "quantifier": "For all hooks (any sequence of LOG, fatal statements, crashing instructions, raised signals, abort and exceptions), all fatal events (statements and signals) and all sets of handled signals.", "why_tests_cant": "A crash inside a hook inside a signal handler ends or hangs the test program; the unit tests replace the exit handler and their hooks crash by statements only.", "anchors": ["src/g3log.cpp: saveFatalMessage", "src/g3log/g3log.hpp: setFatalPreLoggingHook", "src/crashhandler_unix.cpp: signalHandler", "src/crashhandler_unix.cpp: shouldDoExit", "src/crashhandler_unix.cpp: installSignalHandler"]}
{"id": "C122", "title": "A fatal signal is reported wherever it hits the program, whatever locks are held then", "statement": "Whatever a thread is doing when a fatal signal hits it, inside or outside of the library and whatever locks it and other threads own, the signal handler gets its message to the worker.", "quantifier": "For all programs of any number of threads that allocate memory, log, set hooks and use locks of their own around all this, all schedules and every moment at which the signal arrives.", "why_tests_cant": "The signal would have to be delivered between two particular instructions of malloc or of the queue, under every schedule of the other threads; tests raise signals from calm code only.", "anchors": ["src/crashhandler_unix.cpp: signalHandler", "src/crashhandler_unix.cpp: stackdump", "src/g3log.cpp: setFatalPreLoggingHook", "src/g3log/shared_queue.hpp: push", "src/logworker.cpp: LogWorker::fatal"]}
{"id": "C123", "title": "A log file that other programs rename, remove, empty or append to while the program logs loses no entry", "statement": "When other programs rename, link, remove, empty, replace or extend the log file while the sink has it open, every later entry can still be read, in a file that contains the log as it would be otherwise; and after changeLogFile the log goes on in a proper file.", "quantifier": "For all sequences of operations on a file sink, interleaved in any way with any sequence of operations of other programs on the names and contents of files, from any initial file system, for all flush intervals and all ways the stream empties its buffer.", "why_tests_cant": "A test can rename or truncate a file at a few moments, but cannot cover every interleaving with partially flushed buffers, hard links and further files, nor show that nothing is visible under any name.", "anchors": ["src/filesinkhelper.ipp: openLogFile", "src/filesinkhelper.ipp: createLogFile", "src/filesink.cpp: FileSink::fileWrite", "src/filesink.cpp: FileSink::changeLogFile", "src/filesink.cpp: FileSink::~FileSink"]}
{"id": "C124", "title": "A program may block signals in its threads: a fatal event is reported and ends the process with its signal", "statement": "Whatever signals the threads of a program block, and whenever they block them, a fatal signal or a fatal statement in a program that logs is reported, and the process then ends by the signal, so that its parent sees it and a core is dumped.", "quantifier": "For all sets of handled signals, all histories of starting threads, setting up logging, adding sinks and setting signal masks in any thread, every fatal event (raise, a fault, a signal from outside with every choice of the receiving thread by the kernel, a fatal statement), and all runs that follow.", "why_tests_cant": "Which thread gets a signal from outside is the choice of the kernel and seldom differs between runs of a test, and that a process never ends whatever happens cannot be observed at all.", "anchors": ["src/crashhandler_unix.cpp: signalHandler", "src/crashhandler_unix.cpp: exitWithDefaultSignalHandler", "src/crashhandler_unix.cpp: restoreSignalHandlerToDefault", "src/logworker.cpp: LogWorkerImpl::bgFatal", "src/g3log.cpp: initializeLogging"]}
{"id": "C125", "title": "A crash is reported however deep the calls are, a stack overflow included", "statement": "When a program that logs crashes, the crash and everything logged before it is in the log, however much of the stack of the thread is in use, and also if the crash is that the stack has been used up.", "quantifier": "For all sequences of calls, returns, log statements, fatal statements and crashes of a thread, for all sizes of its stack, of its functions, of the frame of a signal, of the handler and of an alternate stack.", "why_tests_cant": "Whether there is room depends on the sizes of frames chosen by the compiler and on the processor; a test covers single sizes and one place of the crash.", "anchors": ["src/crashhandler_unix.cpp: installSignalHandler", "src/crashhandler_unix.cpp: signalHandler", "src/logcapture.cpp: LogCapture::~LogCapture", "src/g3log.cpp: pushFatalMessageToLogger"]}
{"id": "C126", "title": "A shared library that has logged may be unloaded, and memory used in a message freed, while the message waits", "statement": "The message of a log statement is what its text, file, function, level and expression were when the statement ended. Whatever then happens to the memory they came from, be it freed, used again, or that of a shared library that is unloaded, the log is the same, as long as the function that formats entries stays there.", "quantifier": "For all histories of statements in any number, begun, streamed into and ended in any interleaving, of writing, freeing and unloading any memory, of formatting by the sink and of setting the formatter, from any initial memory.", "why_tests_cant": "Reading memory that is gone mostly goes well in a test, because the contents are still there; which of the many pointers are kept cannot be seen from outside.", "anchors": ["src/logcapture.cpp: LogCapture::~LogCapture", "src/g3log.cpp: saveMessage", "src/logmessage.cpp: LogMessage::LogMessage", "src/g3log/logcapture.hpp: LogCapture", "src/filesink.cpp: FileSink::overrideLogDetails"]}
{"id": "C127", "title": "Functions that log may be called inside logging statements", "statement": "The operands of a logging statement may themselves log, to any depth and on any number of threads. Each statement is logged once, after the statements inside it and when it ends, with exactly what was inserted into it: neither text nor formatting (base, width, precision) of a statement inside or around it, or of another thread, gets into its message. A fatal statement inside others is the last that its thread logs; the statements around it are not logged.", "quantifier": "For all histories of any number of threads with statements at any level, nested to any depth, and any insertions, which may depend on and change the format state of the stream or leave it in a failed state.", "why_tests_cant": "The nestings and interleavings are unbounded; a test shows one nesting, and that two streams share no state for one choice of manipulators.", "anchors": ["src/g3log/g3log.hpp: LOG", "src/g3log/logcapture.hpp: LogCapture", "src/logcapture.cpp: LogCapture::~LogCapture", "src/g3log.cpp: saveMessage", "src/g3log.cpp: pushFatalMessageToLogger"]}
{"id": "C128", "title": "A program may log in its own signal handlers", "statement": "Handlers that a program installs for signals of its own (a timer, SIGUSR1, SIGCHLD) and that return may contain LOG statements: whenever such a signal comes, the handler logs and returns, the interrupted thread goes on, and no thread waits for ever.", "quantifier": "For all programs of any number of threads that log, allocate, set hooks and use locks of their own, all schedules, and any number of signals at any moments, also while handlers run.", "why_tests_cant": "The signal must come within the few instructions in which the thread holds the lock of the heap or of the queue; a test that sends signals practically never hits them, and no number of passing runs shows that it cannot.", "anchors": ["src/logcapture.cpp: LogCapture::~LogCapture", "src/g3log.cpp: saveMessage", "src/logworker.cpp: LogWorker::save", "src/g3log/shared_queue.hpp: shared_queue::push"]}
{"id": "C129", "title": "Every log file begins with its header", "statement": "A log file of the file sink with entries in it begins with a header that says when the file was begun, followed by the text given last with overrideLogHeader (or the default text), and has only this header; this holds as well for files to which the log is changed with changeLogFile.", "quantifier": "For all histories of messages, changes of the file that succeed or fail, of the header and of the formatter, all flush intervals.", "why_tests_cant": "The number and order of messages and changes is unbounded; the tests look at the text about the change and at the entries, and never at the beginning of a file after a change.", "anchors": ["src/filesink.cpp: FileSink::fileWrite", "src/filesink.cpp: FileSink::changeLogFile", "src/filesink.cpp: FileSink::overrideLogHeader", "src/filesink.cpp: FileSink::addLogFileHeader"]}
{"id": "C130", "title": "A time stamp is in the time zone of its statement", "statement": "The time stamp of an entry is the time of its logging statement in the time zone that the program had set (variable TZ) when the statement was executed, in every sink, also when the program changes its time zone while messages wait.", "quantifier": "For all programs that set TZ and log in any order, any number of sinks that format at any time, any time formats, all zones, and C libraries whose localtime_r looks at TZ or not.", "why_tests_cant": "How long messages wait relative to a change of the zone depends on the schedule; the tests never change the time zone.", "anchors": ["src/logmessage.cpp: LogMessage::timestamp", "src/time.cpp: localtime", "src/time.cpp: localtime_formatted", "src/time.cpp: put_time"]}
{"id": "C131", "title": "A time stamp shows what the system clock showed at its statement", "statement": "The time stamp of an entry is the time that the system clock showed when the logging statement was executed, also when the system clock is set while the program runs.", "quantifier": "For all programs and schedules, all settings of the system clock at any time, clocks of messages that are the system clock or a steady clock, all periods of the system clock.", "why_tests_cant": "It depends on when the clock is set relative to two readings inside the library and to the first stamp of the process; tests do not set the clock.", "anchors": ["src/g3log/time.hpp: to_system_time", "src/logmessage.cpp: LogMessage::timestamp", "src/logmessage.cpp: LogMessage::LogMessage"]}
{"id": "C132", "title": "A log file that the sink has left is released", "statement": "When a file sink has changed to another file or is destroyed, its old log file is no longer open: after it has been removed its space is free, and its file system can be unmounted, whatever other programs the logging program has started.", "quantifier": "For all numbers of file sinks, all histories of their making, changes of their files and destruction, and all programs started and ended at any time, during a change too.", "why_tests_cant": "Which program inherits which file depends on when it is started relative to the steps of a change; the tests start no programs.", "anchors": ["src/filesinkhelper.ipp: openLogFile", "src/filesinkhelper.ipp: createLogFile", "src/filesink.cpp: FileSink::changeLogFile", "src/filesink.cpp: FileSink::~FileSink"]}
{"id": "C133", "title": "A logging statement shows and leaves errno as the program set it", "statement": "An operand of a logging statement that uses errno, as strerror(errno) does, sees the value that errno had when the statement began, and after the statement errno is unchanged.", "quantifier": "For all programs of one thread, all kinds of statements with any numbers of operands, before, during and after the time of initialised logging, whatever calls of the standard library and the system inside the logging code set errno.", "why_tests_cant": "Whether a call sets errno depends on the state of the heap, of the dynamic linker and of stderr; with the usual outcomes in a test nothing is seen.", "anchors": ["src/g3log/g3log.hpp: LOG", "src/g3log/g3log.hpp: CHECK", "src/logcapture.cpp: LogCapture::LogCapture", "src/logcapture.cpp: LogCapture::capturef", "src/g3log.cpp: pushMessageToLogger"]}
{"id": "C134", "title": "A broken pipe or a full quota costs only the entries concerned", "statement": "An error of writing to one log file or to the standard error stream does not end the process, and every other file sink has all its entries in its file when it is destroyed.", "quantifier": "For all numbers of file sinks, all histories of entries, transfers and destructions, and all outcomes of every transfer, with any signal that announces the error.", "why_tests_cant": "The failing case needs the reader of a pipe to end, or a limit of the size of files to be reached, at a certain moment; tests have a working stderr and no limits.", "anchors": ["src/filesink.cpp: FileSink::~FileSink", "src/filesink.cpp: FileSink::fileWrite", "src/crashhandler_unix.cpp: kSignals"]}
{"id": "C135", "title": "The thread identification of an entry tells which thread logged it", "statement": "The thread identification in an entry is that of the thread which executed the statement, and entries that show the same identification are of the same thread.", "quantifier": "For all numbers of threads that start, log and end in any order, all identifications that the system may give them, and all moments at which the worker handles the messages.", "why_tests_cant": "Whether an identification is given again depends on the system and on when threads end; tests that start a few threads at once see different ones.", "anchors": ["src/logmessage.cpp: LogMessage::LogMessage", "src/logmessage.cpp: LogMessage::threadID", "src/g3log.cpp: saveMessage"]}
{"id": "C136", "title": "A change of the format applies to the entries logged after it", "statement": "When the format of the entries is changed through the handle of a file sink, entries logged before the call have the old format and entries logged after it have the new one.", "quantifier": "For all sequences of messages and changes, all formats, and all interleavings of the logging threads, the worker and the sink.", "why_tests_cant": "A test sees the failing order only if the worker is late at the moment of the call; usually its queue is empty then.", "anchors": ["src/g3log/sink.hpp: Sink::send", "src/g3log/sink.hpp: Sink::async", "src/filesink.cpp: FileSink::overrideLogDetails", "src/logworker.cpp: LogWorkerImpl::bgSave"]}
{"id": "C137", "title": "removeSink removes the sink of its handle", "statement": "When removeSink returns, the sink of the handle is removed: it gets nothing that is logged afterwards, whatever else the program does with its workers.", "quantifier": "For all sequences of adding sinks, removing them one by one or all together, and logging, on any number of workers.", "why_tests_cant": "Tests have one worker at a time; the failing case needs two workers and a handle given to the wrong one, where nothing is reported.", "anchors": ["src/g3log/logworker.hpp: LogWorker::addSink", "src/g3log/logworker.hpp: LogWorker::removeSink", "src/g3log/logworker.hpp: LogWorker::removeAllSinks", "src/g3log/sinkhandle.hpp: SinkHandle::sink"]}
