{
 "claims": [
  {
   "property": "C01",
   "status": "proved",
   "theorems": [
    "G3.Props.C01_order",
    "G3.Props.C01_same_order",
    "G3.Props.C01_program_order"
   ],
   "note": "Every schedule; any number of clients, sinks and messages. C01_same_order and C01_program_order compare messages that are told apart from each other."
  },
  {
   "property": "C02",
   "status": "proved",
   "theorems": [
    "G3.Props.C02_prefix",
    "G3.Props.C02_complete",
    "G3.Props.C02_each",
    "G3.Props.C02_attached"
   ],
   "note": "At every moment an initial part of the sequential specification, all of it when worker and sink are drained; C02_each and C02_attached spell out the specification."
  },
  {
   "property": "C03",
   "status": "partial",
   "theorems": [
    "G3.Props.C03_partial",
    "G3.Props.C03_before_partial",
    "G3.Props.C03_negation",
    "G3.Props.C03_exact",
    "G3.Props.C03_rest"
   ],
   "note": "False for a sink that a client keeps alive through SinkHandle::sink(): the destructor returns before that sink has processed its messages (C03_negation). Proved for every other sink. C03_exact: in every case what a sink has not processed of its due when the destructor returns is what its thread is at and what is in its queue; it gets nothing else later, and can still process that (C03_rest)."
  },
  {
   "property": "C04",
   "status": "partial",
   "theorems": [
    "G3.Props.C04_partial",
    "G3.Props.C04_others",
    "G3.Props.C04_negation",
    "G3.Props.C04_exact",
    "G3.Props.C04_rest"
   ],
   "note": "False for a sink that a client keeps alive (C04_negation): the call returns before the sink has processed its messages. Proved otherwise, and in every case the sink gets nothing that was logged after the call. C04_exact: in every case what it has processed and what it is still at are what was due before the call, at every later moment; it can still process the rest (C04_rest)."
  },
  {
   "property": "C05",
   "status": "partial",
   "theorems": [
    "G3.Props.C05_partial",
    "G3.Props.C05_negation",
    "G3.Props.C05_exact",
    "G3.Props.C05_rest"
   ],
   "note": "As C04 (C05_negation). C05_exact, C05_rest: exactly as C04_exact, C04_rest."
  },
  {
   "property": "C06",
   "status": "proved",
   "theorems": [
    "G3.Props.C06_effective",
    "G3.Props.C06_not_before"
   ],
   "note": "Every history and schedule; the hypothesis is that no removal and no fatal event was requested in between."
  },
  {
   "property": "C07",
   "status": "partial",
   "theorems": [
    "G3.Props.C07_partial",
    "G3.Props.C07_negation",
    "G3.Props.C07_exact"
   ],
   "note": "False for a sink that a client keeps alive (C07_negation): the process ends with its messages unprocessed. Proved for every other sink. C07_exact: what is lost for a sink when the process ends is exactly what its thread is at and what is in its queue, and then a client keeps it alive."
  },
  {
   "property": "C08",
   "status": "proved",
   "theorems": [
    "G3.Props.C08_last",
    "G3.Props.C08_nothing_later"
   ],
   "note": "Every schedule, messages logged concurrently or later included."
  },
  {
   "property": "C09",
   "status": "proved",
   "theorems": [
    "G3.Props.C09_exit",
    "G3.Props.C09_release",
    "G3.Props.C09_default"
   ],
   "note": "Every level, signal number and delivery outcome of the model of the exit path."
  },
  {
   "property": "C10",
   "status": "proved",
   "theorems": [
    "G3.Props.C10_first_kept",
    "G3.Props.C10_before",
    "G3.Props.C10_stderr"
   ],
   "note": "Every history of front-end calls without fatal events."
  },
  {
   "property": "C11",
   "status": "proved",
   "theorems": [
    "G3.Props.C11_after_shutdown"
   ],
   "note": "Every history before, any number of LOG calls between and after."
  },
  {
   "property": "C12",
   "status": "proved",
   "theorems": [
    "G3.Props.C12_shutdown_active",
    "G3.Props.C12_warning"
   ],
   "note": "Every state (with or without reachability), every pair of workers, both settings of the WARNING level."
  },
  {
   "property": "C13",
   "status": "proved",
   "theorems": [
    "G3.Props.C13_illegal",
    "G3.Props.C13_legal",
    "G3.Props.C13_message"
   ],
   "note": "After every history; whatever would follow is not executed. Whether the process then ends is C104."
  },
  {
   "property": "C14",
   "status": "partial",
   "theorems": [
    "G3.Props.C14_negation",
    "G3.Props.C14_no_fault_partial",
    "G3.Props.C14_exact",
    "G3.Props.C14_over"
   ],
   "note": "False: LOG reads the worker pointer twice without the mutex, so a shut-down in between gives a null dereference and a destruction a use after free (C14_negation). Proved for schedules where logging is shut down only while no LOG call is in progress (C14_no_fault_partial); C14_exact says for every schedule which calls touch a missing worker, C14_over which ones end without harm. Whole accesses interleave; the data race itself is outside the model."
  },
  {
   "property": "C15",
   "status": "proved",
   "theorems": [
    "G3.Props.C15_linearisable",
    "G3.Props.C15_fifo",
    "G3.Props.C15_exclusive"
   ],
   "note": "Any number of threads, every interleaving of lock, wait, wake-up, notify and unlock steps; linearisation points explicit."
  },
  {
   "property": "C16",
   "status": "proved",
   "theorems": [
    "G3.Props.C16_stuck",
    "G3.Props.C16_progress",
    "G3.Props.C16_bounded"
   ],
   "note": "Every reachable state, spurious wake-ups and any choice of notify_one included; C16_bounded bounds the number of internal steps."
  },
  {
   "property": "C17",
   "status": "proved",
   "theorems": [
    "G3.Props.C17_exactly_those",
    "G3.Props.C17_nothing_later",
    "G3.Props.C17_destructor_returns"
   ],
   "note": "Every schedule of senders, thread and destructor. Tasks are assumed to return."
  },
  {
   "property": "C18",
   "status": "proved",
   "theorems": [
    "G3.Props.C18_future_sequential",
    "G3.Props.C18_future_result",
    "G3.Props.C18_future_stores",
    "G3.Props.C18_future_refused",
    "G3.Props.C18_future_stable",
    "G3.Props.C18_future_all",
    "G3.Props.C18_calls_prefix",
    "G3.Props.C18_calls_all",
    "G3.Props.C18_calls_order",
    "G3.Props.C18_refused",
    "G3.Props.C18_refused_iff",
    "G3.Props.C18_removed",
    "G3.Props.C18_log_then_call"
   ],
   "note": "Every schedule: C18_calls_* for the way of a call to the thread of the sink, C18_refused* and C18_removed for removed sinks, C18_future_* for results, exceptions, null workers and destroyed tasks. C18_log_then_call records what is not promised: a message logged before a call may be processed after it."
  },
  {
   "property": "C19",
   "status": "proved",
   "theorems": [
    "G3.Props.C19_conservation",
    "G3.Props.C19_single_owner",
    "G3.Props.C19_chain",
    "G3.Props.C19_second_copy"
   ],
   "note": "Every sequence of copies, moves, assignments and releases."
  },
  {
   "property": "C20",
   "status": "proved",
   "theorems": [
    "G3.Props.C20_routing",
    "G3.Props.C20_fatal_iff",
    "G3.Props.C20_predefined"
   ],
   "note": "For every level value and text; the routing consequence (fatal path iff >= 1000) is also used in the Capture/Front models."
  },
  {
   "property": "C21",
   "status": "proved",
   "theorems": [
    "G3.Props.C21_registry_refines_map",
    "G3.Props.C21_no_interference"
   ],
   "note": "Refinement of the sorted-map registry to a plain function spec for every history whose LOGs use registered levels; C60 covers all histories."
  },
  {
   "property": "C22",
   "status": "partial",
   "theorems": [
    "G3.Props.C22_setHighest_partial",
    "G3.Props.C22_negation"
   ],
   "note": "False in general: a LOG at an unregistered level leaves an entry carrying the inner INFO value behind, so a later setHighest leaves INFO enabled and the logged level disabled (C22_negation). Proved for every history that logs at registered levels only; exact behaviour for all histories in C60_exact."
  },
  {
   "property": "C23",
   "status": "partial",
   "theorems": [
    "G3.Props.C23_query_readonly_partial",
    "G3.Props.C23_query_unregistered",
    "G3.Props.C23_negation"
   ],
   "note": "False in general: logLevel inserts a default entry (C23_negation). Proved for registered levels; for an unregistered one the answer is still false (C23_query_unregistered)."
  },
  {
   "property": "C24",
   "status": "proved",
   "theorems": [
    "G3.Props.C24_LOG_off",
    "G3.Props.C24_LOG_on",
    "G3.Props.C24_LOG_IF_off",
    "G3.Props.C24_LOG_IF_on",
    "G3.Props.C24_static_always_on"
   ],
   "note": "LOG / LOG_IF / LOGF / LOGF_IF gating with side-effecting conditions and arguments, dynamic and static level builds."
  },
  {
   "property": "C25",
   "status": "partial",
   "theorems": [
    "G3.Props.C25_CHECK_partial",
    "G3.Props.C25_CHECK_ignores_registry",
    "G3.Props.C25_negation",
    "G3.Props.C25_exact"
   ],
   "note": "False for integer conditions other than 0 and 1: CHECK(2) fires because the macro compares true == (expression) (C25_negation). Proved for boolean conditions; C25_exact gives the exact condition."
  },
  {
   "property": "C26",
   "status": "proved",
   "theorems": [
    "G3.Props.C26_toString",
    "G3.Props.C26_contains_message",
    "G3.Props.C26_signal_ctor",
    "G3.Props.C26_signal_place"
   ],
   "note": "Exact text for every message, level and formatter."
  },
  {
   "property": "C27",
   "status": "proved",
   "theorems": [
    "G3.Props.C27_round_trip",
    "G3.Props.C27_injective",
    "G3.Props.C27_condition_needed"
   ],
   "note": "Round trip through an independent reader; injectivity; the delimiter condition is shown to be needed."
  },
  {
   "property": "C28",
   "status": "proved",
   "theorems": [
    "G3.Props.C28_split",
    "G3.Props.C28_unique",
    "G3.Props.C28_message"
   ],
   "note": "Existence and uniqueness characterisation of the split."
  },
  {
   "property": "C29",
   "status": "partial",
   "theorems": [
    "G3.Props.C29_copy",
    "G3.Props.C29_copy_exact",
    "G3.Props.C29_copy_toString",
    "G3.Props.C29_assign_partial",
    "G3.Props.C29_negation",
    "G3.Props.C29_swap_involutive"
   ],
   "note": "Copy and move are complete. Assignment is not: file_path and the stored formatter are not copied (C29_negation); all other fields are (C29_assign_partial)."
  },
  {
   "property": "C30",
   "status": "partial",
   "theorems": [
    "G3.Props.C30_sink_formatter",
    "G3.Props.C30_formatter_partial",
    "G3.Props.C30_negation"
   ],
   "note": "toString(f) uses f; the claim for overrideLogDetailsFunc + toString() is false (C30_negation). FileSink: C30_sink_formatter."
  },
  {
   "property": "C31",
   "status": "proved",
   "theorems": [
    "G3.Props.C31_fraction_digits",
    "G3.Props.C31_prefix"
   ],
   "note": "Every time point at or after the epoch, every unit."
  },
  {
   "property": "C32",
   "status": "proved",
   "theorems": [
    "G3.Props.C32_find",
    "G3.Props.C32_terminates",
    "G3.Props.C32_substitution",
    "G3.Props.C32_no_fraction"
   ],
   "note": "Every format string; termination with explicit fuel bound."
  },
  {
   "property": "C33",
   "status": "partial",
   "theorems": [
    "G3.Props.C33_iff",
    "G3.Props.C33_right_iff",
    "G3.Props.C33_total_partial",
    "G3.Props.C33_negation",
    "G3.Props.C33_before_epoch"
   ],
   "note": "False before 1970 when the fraction is non-zero: length_error, or a minus sign among the digits (C33_negation, C33_before_epoch). C33_iff: formatting succeeds exactly at or after the epoch, or before it when the truncated fraction has fewer digits than the unit. C33_right_iff: the result is the fixed-width number exactly at or after the epoch, or when the fraction is zero."
  },
  {
   "property": "C34",
   "status": "proved",
   "theorems": [
    "G3.Props.C34_constant_shift",
    "G3.Props.C34_coarse_clock"
   ],
   "note": "Differences preserved for every pair of readings (coarser system clocks: rounding bound)."
  },
  {
   "property": "C35",
   "status": "partial",
   "theorems": [
    "G3.Props.C35_capturef_partial",
    "G3.Props.C35_boundary",
    "G3.Props.C35_negation",
    "G3.Props.C35_setMax",
    "G3.Props.C35_setMax_negation",
    "G3.Props.C35_iff",
    "G3.Props.C35_sizes"
   ],
   "note": "False at one boundary: a text of exactly the buffer size loses its last character without the truncation mark (C35_negation, C35_boundary); C35_iff: this is the only case. Sizes above INT_MAX narrow to an int (C35_setMax_negation); C35_sizes gives the outcome for every size given to setMaxMessageSize. vsnprintf is trusted to behave as in the C standard."
  },
  {
   "property": "C36",
   "status": "proved",
   "theorems": [
    "G3.Props.C36_prefix",
    "G3.Props.C36_cleaning",
    "G3.Props.C36_clean",
    "G3.Props.C36_idempotent"
   ],
   "note": "Every prefix text; cleaned name is accepted iff non-empty and free of the forbidden characters; idempotent."
  },
  {
   "property": "C37",
   "status": "partial",
   "theorems": [
    "G3.Props.C37_path_partial",
    "G3.Props.C37_cases",
    "G3.Props.C37_blank",
    "G3.Props.C37_negation",
    "G3.Props.C37_trailing",
    "G3.Props.C37_iff"
   ],
   "note": "False for directories made only of slashes, backslashes and spaces: \"/\" becomes a relative path (C37_negation). C37_iff: exactly those directories are not respected; C37_cases and C37_blank give the result for every directory."
  },
  {
   "property": "C38",
   "status": "proved",
   "theorems": [
    "G3.Props.C38_constructor",
    "G3.Props.C38_content",
    "G3.Props.C38_no_message",
    "G3.Props.C38_interval_zero"
   ],
   "note": "Every history without a change of file, every flush interval >= 1, arbitrary stream spills. Interval 0 is undefined behaviour (C38_interval_zero)."
  },
  {
   "property": "C39",
   "status": "proved",
   "theorems": [
    "G3.Props.C39_bounded_loss",
    "G3.Props.C39_wrap",
    "G3.Props.C39_wrap_before"
   ],
   "note": "Exact number of missing entries (n mod N) at every point of every history. C39_wrap: the same bound when the counter of entries, a machine number, wraps."
  },
  {
   "property": "C40",
   "status": "proved",
   "theorems": [
    "G3.Props.C40_layout",
    "G3.Props.C40_no_loss",
    "G3.Props.C40_result"
   ],
   "note": "Every history of writes and successful or failing changes to new names; exact layout of all files. Reuse of a name: see C42."
  },
  {
   "property": "C41",
   "status": "partial",
   "theorems": [
    "G3.Props.C41_exact",
    "G3.Props.C41_old_file_partial",
    "G3.Props.C41_negation"
   ],
   "note": "False for flush intervals above 1 (C41_negation); proved for interval 1; C41_exact says exactly which entries stay in the old files for every interval."
  },
  {
   "property": "C42",
   "status": "partial",
   "theorems": [
    "G3.Props.C42_reuse_exact",
    "G3.Props.C42_kept_iff",
    "G3.Props.C42_back_negation",
    "G3.Props.C42_kept_partial",
    "G3.Props.C42_same_name",
    "G3.Props.C42_same_name_destroyed",
    "G3.Props.C42_negation"
   ],
   "note": "False when the change asks for the name in use: the file is truncated and the old text lost (C42_negation, general form C42_same_name); also when it asks for the name of an earlier file (C42_back_negation). C42_reuse_exact: the content of the whole file system after every sequence of operations that may use names again, as long as no change asks for the very name in use. C42_kept_iff: a change of file keeps everything if and only if it fails or the file it asks for has nothing in it (or, for the file in use, nothing but NULs on disk)."
  },
  {
   "property": "C43",
   "status": "proved",
   "theorems": [
    "G3.Props.C43_any_order",
    "G3.Props.C43_any_order_back",
    "G3.Props.C43_override",
    "G3.Props.C43_init",
    "G3.Props.C43_to_default",
    "G3.Props.C43_restore_one",
    "G3.Props.C43_restore_all",
    "G3.Props.C43_off",
    "G3.Props.C43_nothing_else"
   ],
   "note": "Every starting table of dispositions and every set of signals; nothing outside the set is touched. C43_any_order gives the disposition of every signal after any calls in any order and number."
  },
  {
   "property": "C44",
   "status": "partial",
   "theorems": [
    "G3.Props.C44_counted",
    "G3.Props.C44_exact",
    "G3.Props.C44_one_init",
    "G3.Props.C44_order_partial",
    "G3.Props.C44_negation_signal",
    "G3.Props.C44_negation_abort",
    "G3.Props.C44_negation",
    "G3.Props.C44_other_signals"
   ],
   "note": "False when overrideSetupSignals is called before initializeLogging: handlers are saved twice, so the restored disposition is the library handler again (C44_negation, and its two effects C44_negation_signal, C44_negation_abort). C44_order_partial is the orderly case. C44_exact gives the end of a fatal event after any calls in any order: it is the right one exactly if the handlers were never installed over themselves for that signal, and C44_one_init says when that is."
  },
  {
   "property": "C45",
   "status": "proved",
   "theorems": [
    "G3.Props.C45_one_report",
    "G3.Props.C45_winner_proceeds",
    "G3.Props.C45_after_release"
   ],
   "note": "Every number of threads, every interleaving of the handler entry."
  },
  {
   "property": "C46",
   "status": "proved",
   "theorems": [
    "G3.Props.C46_named",
    "G3.Props.C46_other",
    "G3.Props.C46_injective",
    "G3.Props.C46_signal_text"
   ],
   "note": "Every level and signal number, POSIX names."
  },
  {
   "property": "C47",
   "status": "proved",
   "theorems": [
    "G3.Props.C47_once",
    "G3.Props.C47_history",
    "G3.Props.C47_recursion_marked",
    "G3.Props.C47_no_runaway",
    "G3.Props.C47_hook_throws",
    "G3.Props.C47_depth",
    "G3.Props.C47_any_hook"
   ],
   "note": "Every hook tree (hooks that log, raise fatal events, install other hooks, throw), every nesting depth; the hook must not install itself again."
  },
  {
   "property": "C48",
   "status": "partial",
   "theorems": [
    "G3.Props.C48_negation",
    "G3.Props.C48_lost",
    "G3.Props.C48_report_partial",
    "G3.Props.C48_exact",
    "G3.Props.C48_iff",
    "G3.Props.C48_second"
   ],
   "note": "False in a program that has neither initialised logging nor set a hook: std::bad_function_call (C48_negation, for every such history; C48_lost and C48_second say what follows if the program survives it). Proved when a hook exists and raises no fatal event (C48_report_partial). C48_exact gives the outcome for every history without initialisation, C48_iff the exact condition."
  },
  {
   "property": "C49",
   "status": "partial",
   "theorems": [
    "G3.Props.C49_exact",
    "G3.Props.C49_first_partial",
    "G3.Props.C49_negation"
   ],
   "note": "False: a second, unrelated fatal event is flagged, and so is an event whose own hook raised one (C49_negation). C49_exact says for every history which messages are flagged; the intended half is C49_first_partial and C47_recursion_marked."
  },
  {
   "property": "C50",
   "status": "proved",
   "theorems": [
    "G3.Props.C50_bracket_line",
    "G3.Props.C50_plain_line",
    "G3.Props.C50_no_plus",
    "G3.Props.C50_brackets_total",
    "G3.Props.C50_bracket_exact",
    "G3.Props.C50_bracket_reversed",
    "G3.Props.C50_plain_exact",
    "G3.Props.C50_plain_no_name",
    "G3.Props.C50_fails_iff",
    "G3.Props.C50_dump",
    "G3.Props.C50_raw"
   ],
   "note": "Every backtrace line; exact condition for the one kind of line that makes the dump throw."
  },
  {
   "property": "C51",
   "status": "proved",
   "theorems": [
    "G3.Props.C51_file",
    "G3.Props.C51_all_logged",
    "G3.Props.C51_program"
   ],
   "note": "Worker and file sink composed: every schedule, flush interval and spill. As in C03 no client may keep the sink alive through SinkHandle::sink()."
  },
  {
   "property": "C52",
   "status": "proved",
   "theorems": [
    "G3.Props.C52_bounded",
    "G3.Props.C52_drains",
    "G3.Props.C52_exists"
   ],
   "note": "Every reachable state and every order in which the threads are scheduled: C52_bounded bounds the number of steps, C52_drains says in what state a run can end, C52_exists that it ends. Sink callbacks are assumed to return; sink threads blocked by a fatal event of their own are the subject of C62."
  },
  {
   "property": "C53",
   "status": "proved",
   "theorems": [
    "G3.Props.C53_text"
   ],
   "note": "Every text, trace, level and signal; hook that raises no fatal event; exact text."
  },
  {
   "property": "C54",
   "status": "proved",
   "theorems": [
    "G3.Props.C54_text",
    "G3.Props.C54_signal"
   ],
   "note": "Every sequence of insertions."
  },
  {
   "property": "C55",
   "status": "proved",
   "theorems": [
    "G3.Props.C55_text",
    "G3.Props.C55_text_prefix",
    "G3.Props.C55_program_text",
    "G3.Props.C55_fatal_text",
    "G3.Props.C55_fatal_statement",
    "G3.Props.C55_prefix",
    "G3.Props.C55_complete",
    "G3.Props.C55_each"
   ],
   "note": "Every schedule; fatal messages are printed as well. C55_text, C55_text_prefix: the text itself; C55_program_text: from the LOG statements of any number of threads to the text on stderr; C55_fatal_text, C55_fatal_statement: the text after a fatal end."
  },
  {
   "property": "C56",
   "status": "proved",
   "theorems": [
    "G3.Props.C56_name",
    "G3.Props.C56_injective",
    "G3.Props.C56_flat"
   ],
   "note": "Name injective in the parts, one path component."
  },
  {
   "property": "C57",
   "status": "proved",
   "theorems": [
    "G3.Props.C57_listing"
   ],
   "note": "Every reachable registry state."
  },
  {
   "property": "C58",
   "status": "proved",
   "theorems": [
    "G3.Props.C58_default_stamp",
    "G3.Props.C58_stamp_order",
    "G3.Props.C58_file_stamp"
   ],
   "note": "All pairs of in-range broken-down times, years 1000..9999."
  },
  {
   "property": "C59",
   "status": "proved",
   "theorems": [
    "G3.Props.C59_waiting",
    "G3.Props.C59_dispositions",
    "G3.Props.C59_text",
    "G3.Props.C59_text_injective",
    "G3.Props.C59_ignored",
    "G3.Props.C59_reported",
    "G3.Props.C59_unexpected",
    "G3.Props.C59_exit",
    "G3.Props.C59_signal_names",
    "G3.Props.C59_signal"
   ],
   "note": "Every code and state. The table, the texts, both exception handlers, the signal handler and the end of fatal processing are covered."
  },
  {
   "property": "C60",
   "status": "proved",
   "theorems": [
    "G3.Props.C60_exact"
   ],
   "note": "Exact refinement for all histories."
  },
  {
   "property": "C61",
   "status": "partial",
   "theorems": [
    "G3.Props.C61_escaped_percent_partial",
    "G3.Props.C61_negation",
    "G3.Props.C61_exact"
   ],
   "note": "False: %%f is torn apart by the fraction replacement (C61_negation). C61_exact: for every format and every time at or after the epoch what strftime is given is right iff no escaped percent sign, reading from left to right, stands directly before the letter f."
  },
  {
   "property": "C62",
   "status": "partial",
   "theorems": [
    "G3.Props.C62_exact",
    "G3.Props.C62_for_ever",
    "G3.Props.C62_ends_partial",
    "G3.Props.C62_hangs",
    "G3.Props.C62_negation",
    "G3.Props.C62_worker_hangs",
    "G3.Props.C62_worker_negation"
   ],
   "note": "False for an event raised on the thread of a sink (by code called from a sink callback): the worker then joins that thread, which waits for ever (C62_hangs for every such history, C62_negation for a concrete one). False too for a fatal signal that is delivered to the worker thread: it sleeps in its own handler and nobody serves its queue any more (C62_worker_hangs, C62_worker_negation). Proved for events on all other threads when no sink thread is blocked that way (C62_ends_partial). C62_exact: for every history, when nothing more can happen the process has ended, or the worker joins the thread of a sink that sleeps in its own fatal event; C62_for_ever: the latter never changes."
  },
  {
   "property": "C63",
   "status": "partial",
   "theorems": [
    "G3.Props.C63_thread_partial",
    "G3.Props.C63_negation",
    "G3.Props.C63_exact"
   ],
   "note": "False after the handlers have been put back once: the thread-local flag stays set and a later LOG call installs nothing (C63_negation). Proved for all histories in which nothing was put back. C63_exact: for every history the action of every signal on every thread."
  },
  {
   "property": "C64",
   "status": "partial",
   "theorems": [
    "G3.Props.C64_restore_partial",
    "G3.Props.C64_negation",
    "G3.Props.C64_exact"
   ],
   "note": "False if installCrashHandler is called twice, for instance by the program and by initializeLogging (C64_negation). Proved for one installation. C64_exact: for any number of installations and restorations which filter and how many vectored handlers remain."
  },
  {
   "property": "C65",
   "status": "partial",
   "theorems": [
    "G3.Props.C65_start_partial",
    "G3.Props.C65_negation"
   ],
   "note": "False on 32-bit x86, where one field is assigned three times and the other two stay 0 (C65_negation). Proved for the other processors."
  },
  {
   "property": "C66",
   "status": "partial",
   "theorems": [
    "G3.Props.C66_exact",
    "G3.Props.C66_notice_partial",
    "G3.Props.C66_negation"
   ],
   "note": "False: the counter is never decremented, so the third dump of a thread is always replaced by the notice (C66_negation); C66_exact says what each dump is."
  },
  {
   "property": "C67",
   "status": "proved",
   "theorems": [
    "G3.Props.C67_dump",
    "G3.Props.C67_lines"
   ],
   "note": "Every stack and symbol table, for the first two dumps of a thread (see C66 for the later ones)."
  },
  {
   "property": "C68",
   "status": "proved",
   "theorems": [
    "G3.Props.C68_refines",
    "G3.Props.C68_runs",
    "G3.Props.C68_program_order",
    "G3.Props.C68_real_time",
    "G3.Props.C68_stuck",
    "G3.Props.C68_progress",
    "G3.Props.C68_bounded"
   ],
   "note": "Every schedule: C68_refines is the forward simulation to the model of C17, the others state what users see. The object is not used after its destructor has returned, and it is not destroyed by one of its own tasks."
  },
  {
   "property": "C69",
   "status": "partial",
   "theorems": [
    "G3.Props.C69_lock_held",
    "G3.Props.C69_negation",
    "G3.Props.C69_lock_free_partial"
   ],
   "note": "False when the signal hits the thread while it owns the mutex of the queue: the handler then blocks on the same mutex, the fatal message never enters the queue, nothing is taken out of it any more and every other thread that logs blocks too (C69_lock_held for all histories, C69_negation for a concrete one). Proved when the mutex is not owned by the interrupted thread, which must not be the worker thread."
  },
  {
   "property": "C70",
   "status": "proved",
   "theorems": [
    "G3.Props.C70_file",
    "G3.Props.C70_program"
   ],
   "note": "Every schedule, flush interval and spill. As in C03 no client may keep the sink alive through SinkHandle::sink(). C70_program starts from the calls of the front end."
  },
  {
   "property": "C71",
   "status": "proved",
   "theorems": [
    "G3.Props.C71_log_to_file",
    "G3.Props.C71_fatal_to_file"
   ],
   "note": "One logging thread (or several, in the order in which their messages were handed over), every program of statements and documented level operations (no LOG at a level that was never registered, see C60), every schedule. Composes registry, capture, front end, worker and file sink."
  },
  {
   "property": "C72",
   "status": "proved",
   "theorems": [
    "G3.Props.C72_same",
    "G3.Props.C72_once",
    "G3.Props.C72_original"
   ],
   "note": "Object by object, with arbitrary contents of moved-from objects. As in C29 the level name must not contain a NUL character."
  },
  {
   "property": "C73",
   "status": "partial",
   "theorems": [
    "G3.Props.C73_exact",
    "G3.Props.C73_partial",
    "G3.Props.C73_negation",
    "G3.Props.C73_lost"
   ],
   "note": "False for every text that does not fit (C73_negation): vsnprintf_s returns -1 when it truncates, so the code takes the failure branch and the whole text is replaced by the notice about a failure to parse; nothing of it is kept (C73_lost). C73_exact covers every text."
  },
  {
   "property": "C74",
   "status": "partial",
   "theorems": [
    "G3.Props.C74_exact",
    "G3.Props.C74_blame_iff",
    "G3.Props.C74_messages_partial",
    "G3.Props.C74_hook_partial",
    "G3.Props.C74_late_partial",
    "G3.Props.C74_progress_partial",
    "G3.Props.C74_hook_twice",
    "G3.Props.C74_hook_late",
    "G3.Props.C74_label",
    "G3.Props.C74_negation",
    "G3.Props.C74_single_partial"
   ],
   "note": "False in four ways: the hook can run on several threads (C74_hook_twice), a message can be handed over before the hook has run (C74_hook_late), both of two independent events can be labelled recursive and the hook blamed (C74_label), and copying the hook without its mutex while another thread assigns to it is undefined behaviour (C74_negation). Proved for every interleaving: the content of the messages, none twice, at most one without warning, no thread runs the hook twice, it has run when all events are over, late events do not run it, nobody is blocked. C74_exact gives, for every schedule, whether it is possible, whether it is undefined behaviour, who runs the hook and every message with its text; C74_blame_iff says exactly which messages are labelled recursive."
  },
  {
   "property": "C75",
   "status": "partial",
   "theorems": [
    "G3.Props.C75_negation",
    "G3.Props.C75_null",
    "G3.Props.C75_freed",
    "G3.Props.C75_once_partial",
    "G3.Props.C75_after_partial",
    "G3.Props.C75_orderly_safe_partial",
    "G3.Props.C75_orderly_first_partial",
    "G3.Props.C75_orderly_none_partial",
    "G3.Props.C75_kept_partial"
   ],
   "note": "False in three ways: a message stored after initializeLogging has looked for one is never delivered though everything ends normally (C75_negation), the storing thread can dereference the pointer that initializeLogging has just emptied (C75_null), and it can rewrite a text that the background thread is reading or has destroyed (C75_freed). Proved for every schedule: no message is handed over twice (C75_once_partial), what was handed over stays so (C75_kept_partial), a LOG that begins when the logger is set is safe and delivered unaltered (C75_after_partial). Proved when initializeLogging and LOG do not overlap: nothing faulty (C75_orderly_safe_partial), the first early message is delivered first and marked, all later ones unaltered (C75_orderly_first_partial, C75_orderly_none_partial)."
  },
  {
   "property": "C76",
   "status": "partial",
   "theorems": [
    "G3.Props.C76_exact",
    "G3.Props.C76_complete_partial",
    "G3.Props.C76_long",
    "G3.Props.C76_negation",
    "G3.Props.C76_windows",
    "G3.Props.C76_platforms"
   ],
   "note": "False: expansions of 1024 or more characters come out unexpanded in release builds and end the process in debug builds (C76_long), and an empty format ends a debug build (C76_negation). C76_exact gives the outcome for every format, C76_complete_partial the positive part (POSIX branch of put_time). On Windows it holds for every length, and the process ends only for conversions the run-time system does not know (C76_windows); C76_platforms compares the platforms."
  },
  {
   "property": "C77",
   "status": "partial",
   "theorems": [
    "G3.Props.C77_frame",
    "G3.Props.C77_writes",
    "G3.Props.C77_reads",
    "G3.Props.C77_alone",
    "G3.Props.C77_getAll_alone",
    "G3.Props.C77_no_race_partial",
    "G3.Props.C77_exact",
    "G3.Props.C77_negation",
    "G3.Props.C77_negation_switch",
    "G3.Props.C77_log_partial",
    "G3.Props.C77_undisturbed_partial",
    "G3.Props.C77_one_changer_partial"
   ],
   "note": "False: LOG at a level that was never registered inserts into the shared map and races with any other call, even another LOG (C77_negation); switching the same level on two threads, or switching while another thread lists the levels, races for the name stored with the level although the status itself is atomic (C77_negation_switch). C77_exact says for every pair of calls whether it can race. Proved for any number of threads: no race among compatible calls (C77_no_race_partial), none between LOG at registered levels and one thread that switches levels (C77_log_partial), LOG undisturbed by switching of other levels (C77_undisturbed_partial), one switching thread has the sequential effect (C77_one_changer_partial). C77_alone and C77_getAll_alone tie the access-by-access programs to Verif.Model.Levels."
  },
  {
   "property": "C78",
   "status": "partial",
   "theorems": [
    "G3.Props.C78_independent_partial",
    "G3.Props.C78_other_files",
    "G3.Props.C78_content_partial",
    "G3.Props.C78_same_name",
    "G3.Props.C78_emptied",
    "G3.Props.C78_negation"
   ],
   "note": "False for two sinks with the same prefix, id and directory that are built within one second: they get the same file name, the second empties the file (C78_emptied, for every history) and the messages of the first are gone (C78_negation, for every message). This also concerns a program restarted within a second. Proved whenever no other sink uses the file name: the sink behaves as if alone (C78_independent_partial), its file has the content of C38 (C78_content_partial); C78_same_name says when names coincide, C78_other_files that nothing else is touched."
  },
  {
   "property": "C79",
   "status": "partial",
   "theorems": [
    "G3.Props.C79_one_at_a_time_partial",
    "G3.Props.C79_signals_partial",
    "G3.Props.C79_single_partial",
    "G3.Props.C79_negation",
    "G3.Props.C79_negation_signal",
    "G3.Props.C79_negation_null"
   ],
   "note": "Proved for every schedule with a single fatal event, for every schedule in which all fatal events are signals, and generally whenever at most one thread at a time is past the handler's counter. False otherwise: bgFatal clears the logger pointer before it flushes, so a LOG(FATAL)/CHECK on a second thread (or a signal, if the first event was a statement) finds no logger, restores the handlers and ends the process at once; C79_negation shows that whatever has been logged before, nothing of it need have reached a sink, and C79_negation_null that the second thread may call through a null pointer."
  },
  {
   "property": "C80",
   "status": "partial",
   "theorems": [
    "G3.Props.C80_no_return_partial",
    "G3.Props.C80_exiting",
    "G3.Props.C80_negation",
    "G3.Props.C80_negation_race",
    "G3.Props.C80_negation_exit",
    "G3.Props.C80_killed",
    "G3.Props.C80_exited",
    "G3.Props.C80_single",
    "G3.Props.C80_default"
   ],
   "note": "Proved where raising a signal ends the process and fatal events come one at a time. In general a fatal statement returns only while some thread is inside exit() (C80_exiting). False where raising does not end the process (PID 1, ignored signal): LOG(FATAL) returns and the program goes on logging during exit() (C80_negation); false also where it does, if a signal hits a second thread while the first event is being flushed (C80_negation_race); exit() can run on two threads at once (C80_negation_exit)."
  },
  {
   "property": "C81",
   "status": "partial",
   "theorems": [
    "G3.Props.C81_no_error",
    "G3.Props.C81_no_error_end",
    "G3.Props.C81_silent",
    "G3.Props.C81_kept",
    "G3.Props.C81_deaf",
    "G3.Props.C81_negation",
    "G3.Props.C81_recover"
   ],
   "note": "False for \"once writing works again\": the stream keeps its error flag, so after one failed transfer nothing logged later has any influence on any file until changeLogFile succeeds (C81_deaf, C81_negation gives the exact final file), and no call reports it (C81_silent). Proved for all histories: without errors nothing changes (C81_no_error, C81_no_error_end), what is in a file stays there and other files are untouched (C81_kept), a successful changeLogFile makes everything work again (C81_recover)."
  },
  {
   "property": "C82",
   "status": "partial",
   "theorems": [
    "G3.Props.C82_constructor",
    "G3.Props.C82_opened_partial",
    "G3.Props.C82_negation",
    "G3.Props.C82_until_partial",
    "G3.Props.C82_write"
   ],
   "note": "False in release builds: the check is an assertion, the constructor returns normally with a null stream and every life of such a sink ends in undefined behaviour, at the latest in its destructor (C82_negation); C82_until_partial says how long it goes well, C82_write what writing does in every state. C82_constructor compares the constructors of both builds; C82_opened_partial: sinks that did open a file behave as in the debug build. Debug builds end in the assertion (C38_constructor)."
  },
  {
   "property": "C83",
   "status": "partial",
   "theorems": [
    "G3.Props.C83_loggers",
    "G3.Props.C83_others_partial",
    "G3.Props.C83_exact",
    "G3.Props.C83_reached",
    "G3.Props.C83_held_up",
    "G3.Props.C83_negation"
   ],
   "note": "The code violates the full statement: C83_negation (sink 0 hangs in a callback and is being removed; until the callback returns no message logged later reaches sink 1). C83_loggers: logging never waits. C83_others_partial: without a request to remove a hanging sink, to remove all sinks, and without a fatal event, every other sink gets everything; C83_exact: in every case either that or the worker waits for a hanging sink; C83_reached: the point is reached within a bounded number of steps; C83_held_up: while the worker waits for a hanging sink no sink is sent anything."
  },
  {
   "property": "C84",
   "status": "proved",
   "theorems": [
    "G3.Props.C84_locks_refine",
    "G3.Props.C84_locks_prefix",
    "G3.Props.C84_locks_to_file",
    "G3.Props.C84_locks_all",
    "G3.Props.C84_threads_to_file",
    "G3.Props.C84_prefix",
    "G3.Props.C84_all",
    "G3.Props.C84_late"
   ],
   "note": "C84_threads_to_file composes level registry, capture, worker and file sink for any number of threads; C84_all: with levels that are on from the start every statement is there; C84_prefix: at any moment; C84_late records what is not promised: a statement past its level test is logged although another thread has switched the level off since. C84_locks_refine, C84_locks_prefix, C84_locks_all and C84_locks_to_file are the same where threads, worker and sinks are anywhere inside the queues (single lock, unlock, wait and notify operations); that nobody uses the queue of the worker after its destruction is part of the proof there."
  },
  {
   "property": "C85",
   "status": "partial",
   "theorems": [
    "G3.Props.C85_fatal_end",
    "G3.Props.C85_static_exit",
    "G3.Props.C85_prefix",
    "G3.Props.C85_exact",
    "G3.Props.C85_ends_partial",
    "G3.Props.C85_stopped",
    "G3.Props.C85_number",
    "G3.Props.C85_woken",
    "G3.Props.C85_never",
    "G3.Props.C85_negation",
    "G3.Props.C85_negation_lost"
   ],
   "note": "Violated in two ways. (1) C85_negation, C85_never: static LogWorker and a process that survives the signal (the case the comment at crashhandler_unix.cpp:237-239 wants to handle): exit() runs on the worker thread, destroys the LogWorker there, and waits for a task of the very same thread; the process hangs for ever. C85_exact: this is the only way to hang. (2) C85_negation_lost: exit() does not destroy a LogWorker that main owns, messages logged before are lost. Proved: C85_static_exit (static LogWorker, exit by the program: everything logged before is with the sinks), C85_fatal_end (after a fatal event exactly everything up to it is with the sinks, the number is right), C85_prefix, C85_ends_partial (the process ends in all other cases)."
  },
  {
   "property": "C86",
   "status": "partial",
   "theorems": [
    "G3.Props.C86_off",
    "G3.Props.C86_stream",
    "G3.Props.C86_condition",
    "G3.Props.C86_condition_off",
    "G3.Props.C86_check",
    "G3.Props.C86_contract",
    "G3.Props.C86_printf",
    "G3.Props.C86_caller_partial",
    "G3.Props.C86_negation",
    "G3.Props.C86_fatal"
   ],
   "note": "Proved for every level that is not fatal, for throwing conditions, printf arguments and streams, and for fatal levels with the default exit handler (the fatal event takes its course). The full statement fails for fatal levels with an exit handler that throws, as installed with setFatalExitHandler in unit tests: the second exception leaves ~LogCapture during unwinding and the program is terminated (C86_negation)."
  },
  {
   "property": "C87",
   "status": "partial",
   "theorems": [
    "G3.Props.C87_exact",
    "G3.Props.C87_all_partial",
    "G3.Props.C87_negation"
   ],
   "note": "The exact text is proved: everything up to and including the first operand that leaves the stream failed. The full statement fails: after such an operand (for example << other.rdbuf() of an empty stream, which sets failbit) everything else in the statement is dropped without a notice (C87_negation), since the capture writes into one ostringstream whose state is never looked at."
  },
  {
   "property": "C88",
   "status": "proved",
   "theorems": [
    "G3.Props.C88_callback",
    "G3.Props.C88_sender",
    "G3.Props.C88_chain",
    "G3.Props.C88_future",
    "G3.Props.C88_destructor",
    "G3.Props.C88_destroyed_first",
    "G3.Props.C88_removed"
   ],
   "note": "Happens-before is defined in Spec/Visibility from the standard (sequenced before, unlock before lock, end of thread before join, ready before get) and does not depend on the model. C89_events shows that the recorded events are exactly what the steps do. C88_destroyed_first and C88_removed: a thread goes on after a destructor only when the object has been destroyed, so what a removed sink ever did is visible to the caller of removeSink when it returns."
  },
  {
   "property": "C89",
   "status": "proved",
   "theorems": [
    "G3.Props.C89_running",
    "G3.Props.C89_race_free",
    "G3.Props.C89_joined",
    "G3.Props.C89_events",
    "G3.Props.C89_needed"
   ],
   "note": "C89_running needs no condition; C89_race_free and C89_joined have the documented one; C89_needed is a schedule in which it is not met and there is a race."
  },
  {
   "property": "C90",
   "status": "partial",
   "theorems": [
    "G3.Props.C90_sound",
    "G3.Props.C90_exact",
    "G3.Props.C90_documented_partial",
    "G3.Props.C90_logging_partial",
    "G3.Props.C90_negation",
    "G3.Props.C90_calls",
    "G3.Props.C90_calls_real",
    "G3.Props.C90_meaning"
   ],
   "note": "The full statement fails (C90_negation): two fatal events race on the hook, which saveFatalMessage copies without the mutex that protects its assignment; a fatal event races with setFatalPreLoggingHook and setFatalExitHandler; every LOG races with what the worker does after a fatal event of another thread (shutDownLogging writes the pointer that LOG reads without a lock). Proved instead: C90_exact, an exact table (Spec/Globals, 39 entries of variable and two functions): there is a program with a race between the two functions on the variable if and only if it is in the table, even if all atomic variables are taken to synchronise. C90_documented_partial: programs that set up before starting threads and tear down after joining them have no race if the functions the threads call are not forbidden together; C90_logging_partial: in particular LOG, LOGF and setFatalPreLoggingHook on any number of threads. Two calls of initializeLogging, or of overrideSetupSignals, do not race. C90_meaning: the values on which the functions decide are those that the events so far give. C90_calls: in every interleaving every thread does what its program says and every call goes, from beginning to end, one of the ways of a table of accesses (Props/GlobalsCalls); C90_calls_real: each of these ways is gone by some program."
  },
  {
   "property": "C91",
   "status": "partial",
   "theorems": [
    "G3.Props.C91_as_before",
    "G3.Props.C91_prefix",
    "G3.Props.C91_exact",
    "G3.Props.C91_stops",
    "G3.Props.C91_hangs",
    "G3.Props.C91_others_partial",
    "G3.Props.C91_negation",
    "G3.Props.C91_bounded",
    "G3.Props.C91_rests",
    "G3.Props.C91_others_reached_partial"
   ],
   "note": "Violated. An exception calls std::terminate on the thread of the sink; the crash handler for SIGABRT, which runs on that thread, hands the worker a fatal message and waits there for the end of the process, while the worker, before ending the process, waits for that thread: the process hangs for ever (C91_hangs, C91_negation 1). If SIGABRT is not handled, or logging is being shut down (for instance because the callback throws for the fatal message itself), the process ends at once and the other sinks lose what they have not yet processed (C91_exact, C91_negation 2 and 3). True parts: C91_as_before, C91_prefix, C91_stops, and C91_others_partial: if the process hangs, the other sinks have got everything including the report, unless the worker is removing a sink that has thrown. C91_bounded, C91_rests: from every state all threads come to rest after a bounded number of steps, so that C91_others_reached_partial needs no assumption on the schedule."
  },
  {
   "property": "C92",
   "status": "partial",
   "theorems": [
    "G3.Props.C92_file_partial",
    "G3.Props.C92_premature_partial",
    "G3.Props.C92_single_partial",
    "G3.Props.C92_label",
    "G3.Props.C92_ends_partial",
    "G3.Props.C92_negation",
    "G3.Props.C92_cut"
   ],
   "note": "Violated. The worker begins bgFatal by clearing the pointer to the logger, which the threads of the program test and then use without any protection. (1) An ordinary LOG statement on another thread that has tested the pointer just before uses a null pointer: the process dies of that, and neither the lines logged before nor the report reach the file (C92_negation; only one thread has a fatal statement there). (2) A second fatal statement that finds the pointer cleared ends the process at once with its own signal, while the report of the first is still being written (C92_cut). (3) Two fatal statements on different threads are reported as a recursive crash of a hook although there is neither a recursion nor a hook (C92_label says exactly when). Proved for all schedules: if the worker ends the process, the file is as stated, with a note at most if another thread is in a fatal statement (C92_file_partial); the only premature ends are (1) and (2), with the exact situation in which they happen (C92_premature_partial), and with fatal statements in one thread only (1) remains, caused by an ordinary statement of another thread (C92_single_partial); and the end is reached if the threads of the program stay where they are (C92_ends_partial)."
  },
  {
   "property": "C93",
   "status": "proved",
   "theorems": [
    "G3.Props.C93_refines",
    "G3.Props.C93_received",
    "G3.Props.C93_no_dangling",
    "G3.Props.C93_race_free",
    "G3.Props.C93_destroys",
    "G3.Props.C93_terminates",
    "G3.Props.C93_rests",
    "G3.Props.C93_delivers",
    "G3.Props.C93_race_reachable",
    "G3.Props.C93_drains",
    "G3.Props.C93_conserved",
    "G3.Props.C93_program_order"
   ],
   "note": "The model interleaves all threads at single operations on locks and condition variables. C93_refines: every execution is one of the coarse model (Model/Worker) of C01-C08, C18, C52, C55 and C62, so that their invariants hold for it. C93_race_free has the condition that no other thread is inside a call on the worker at the decisive moment of its destruction; C93_race_reachable shows that it is needed. C93_drains assumes that no thread of a sink raises a fatal event (C14 says what happens then). C93_refines names the points at which operations take effect (linRun, Spec/WorkerLocks). C93_terminates: without new input and without spurious wake-ups no infinite sequence of steps exists; with C93_drains that is C93_delivers. C93_destroys: a destructor that begins while no other thread is inside the queue of the worker always finishes, without a race, and every sink has got by then exactly what was handed over before it."
  },
  {
   "property": "C94",
   "status": "partial",
   "theorems": [
    "G3.Props.C94_refines",
    "G3.Props.C94_prefix",
    "G3.Props.C94_forever",
    "G3.Props.C94_exact",
    "G3.Props.C94_rest",
    "G3.Props.C94_bounded",
    "G3.Props.C94_reached",
    "G3.Props.C94_ordered_partial",
    "G3.Props.C94_delivers_partial",
    "G3.Props.C94_terminates",
    "G3.Props.C94_no_terminate_partial",
    "G3.Props.C94_own",
    "G3.Props.C94_self_wait",
    "G3.Props.C94_while_removed",
    "G3.Props.C94_self_removal",
    "G3.Props.C94_negation_wait",
    "G3.Props.C94_negation_remove",
    "G3.Props.C94_negation_two",
    "G3.Props.C94_negation_terminate"
   ],
   "note": "The code does not fulfil it. C94_negation_wait: a sink that waits for a call to itself hangs. C94_negation_remove: a sink that removes itself hangs, and so does the worker behind it. C94_negation_two: two sinks that call each other without waiting, while all sinks are removed, each become the last owner of the other and hang. C94_negation_terminate: a sink that calls itself without waiting, while it is removed, ends the process, because ~Active joins its own thread. C94_while_removed: any synchronous call from the callback of a sink that is just being removed hangs for ever. Proved positively: C94_refines and C94_prefix (order and completeness of what is delivered are not affected), C94_exact (a standstill is either rest or a circle of waiting threads) with C94_bounded and C94_reached, C94_terminates (exactly when the process is ended), C94_own (a sink is called or given up only by who holds it), and C94_ordered_partial with C94_delivers_partial: programs whose threads can be ranked so that they wait only upward are safe and everything is delivered. Missing for the full statement: nothing, since it is false."
  },
  {
   "property": "C95",
   "status": "partial",
   "theorems": [
    "G3.Props.C95_same",
    "G3.Props.C95_construction",
    "G3.Props.C95_silent",
    "G3.Props.C95_true_partial",
    "G3.Props.C95_negation",
    "G3.Props.C95_life",
    "G3.Props.C95_location",
    "G3.Props.C95_stopped",
    "G3.Props.C95_stops"
   ],
   "note": "The code does not fulfil it: C95_negation, an illegal prefix such as a+b is also reported as empty, because the constructor tests the emptied prefix once more (an empty prefix is reported twice). Proved: the exact text of a construction (C95_construction), when it is silent (C95_silent), that all other lines are true (C95_true_partial), the exact text of a whole life of a sink (C95_life), what stderr holds if an operation stops the program (C95_stopped) and when this happens (C95_stops), that the file named at the end is the one that ends with the shut down line (C95_location), and that the functions are otherwise those of C36 to C42 (C95_same). Missing for the full statement: nothing, since it is false."
  },
  {
   "property": "C96",
   "status": "partial",
   "theorems": [
    "G3.Props.C96_call",
    "G3.Props.C96_history",
    "G3.Props.C96_first",
    "G3.Props.C96_off",
    "G3.Props.C96_same",
    "G3.Props.C96_forgotten",
    "G3.Props.C96_negation_forgotten",
    "G3.Props.C96_negation_one_line",
    "G3.Props.C96_write",
    "G3.Props.C96_result_partial",
    "G3.Props.C96_negation_result",
    "G3.Props.C96_windows_install",
    "G3.Props.C96_windows_once",
    "G3.Props.C96_windows_restore",
    "G3.Props.C96_windows_same",
    "G3.Props.C96_negation_windows"
   ],
   "note": "The code does not fulfil it. C96_negation_windows: on Windows every handler that cannot be taken back is reported as SIGABRT. C96_negation_one_line: refused restorations are written without line ends, so that several come out as one line. C96_negation_forgotten and C96_forgotten: a refused restoration uses up the saved action, later attempts do nothing and say nothing. C96_windows_once: a thread whose handlers were refused is not tried again. C96_negation_result: if the write fails, writeErrorMessage returns 2^64-1. Proved: which attempts every call makes, in which order, and the exact effect and text of each (C96_call, C96_history, C96_off), the same on Windows (C96_windows_install, C96_windows_restore), what writeErrorMessage does (C96_write, C96_result_partial), and agreement with the models of C43, C44, C63 and C64 (C96_same, C96_windows_same). Missing for the full statement: nothing, since it is false."
  },
  {
   "property": "C97",
   "status": "partial",
   "theorems": [
    "G3.Props.C97_prefix",
    "G3.Props.C97_complete",
    "G3.Props.C97_err",
    "G3.Props.C97_each",
    "G3.Props.C97_detaches",
    "G3.Props.C97_lost",
    "G3.Props.C97_process",
    "G3.Props.C97_same",
    "G3.Props.C97_raise",
    "G3.Props.C97_released",
    "G3.Props.C97_sink_released",
    "G3.Props.C97_waits_partial",
    "G3.Props.C97_returns",
    "G3.Props.C97_sink_hangs",
    "G3.Props.C97_negation",
    "G3.Props.C97_negation_fatal",
    "G3.Props.C97_negation_second"
   ],
   "note": "The code does not fulfil it. C97_negation and C97_lost: the exception detaches all sinks for good; what is logged later reaches none of them. C97_negation_fatal and C97_returns: after one exception has been dealt with, LOG(FATAL) returns to its caller at once. C97_negation_second: a second thread that raises an exception continues before its report is written. C97_sink_hangs: an exception in the callback of a sink that only the worker owns hangs the process. Proved: what every sink and stderr get, exactly (C97_prefix, C97_complete, C97_err with the specification C97_each, C97_detaches), when the process ends (C97_process), that the thread of the first exception waits for its report (C97_waits_partial), when a waiting thread continues (C97_raise, C97_released, C97_sink_released), and that without exceptions the worker is that of C01 to C08 (C97_same). Missing for the full statement: nothing, since it is false."
  },
  {
   "property": "C98",
   "status": "partial",
   "theorems": [
    "G3.Props.C98_files",
    "G3.Props.C98_fatal",
    "G3.Props.C98_after",
    "G3.Props.C98_before",
    "G3.Props.C98_before_partial",
    "G3.Props.C98_formats",
    "G3.Props.C98_threads",
    "G3.Props.C98_negation"
   ],
   "note": "The last part is false. C98_negation: a thread logs and then asks for the change; the line is in the new file even if the sink flushes after every entry, because the call goes to the sink directly and the message through the queue of the worker. Proved: no line is lost, doubled or reordered over the files (C98_files, C98_fatal when a fatal event ends the process, C98_threads for programs with several threads that also switch levels), lines logged after the change are in the new file (C98_after), which lines are in the old ones, exactly (C98_before), and that all earlier lines are in the old file if the sink flushes after every entry and a synchronous call of the worker returned in between (C98_before_partial). C98_formats also has calls that change the format of the lines. Missing for the full statement: nothing, since it is false."
  },
  {
   "property": "C99",
   "status": "proved",
   "theorems": [
    "G3.Props.C99_unique",
    "G3.Props.C99_reading",
    "G3.Props.C99_behaviour",
    "G3.Props.C99_accepted"
   ],
   "note": "Macros as token sequences against the grammar of C++ statements with its rule for else: C99_reading (the program after preprocessing is read as written, and in no other way), C99_accepted (accepted exactly if right as written), C99_behaviour (same executions), C99_unique (the grammar is unambiguous). Expressions are taken as a whole; jumps out of statements (break, return) are not part of the executions."
  },
  {
   "property": "C100",
   "status": "partial",
   "theorems": [
    "G3.Props.C100_partial",
    "G3.Props.C100_count",
    "G3.Props.C100_second",
    "G3.Props.C100_negation"
   ],
   "note": "False: the macros write their level twice, once for the test and once for the message (C100_negation: a message of a level that is disabled all the time is logged, one of a level enabled all the time is not). C100_second says which evaluation decides what, C100_count how often the level is evaluated. C100_partial: levels with a fixed value, for which the statements are those of C24 and C25."
  },
  {
   "property": "C101",
   "status": "partial",
   "theorems": [
    "G3.Props.C101_exact",
    "G3.Props.C101_otherwise",
    "G3.Props.C101_partial",
    "G3.Props.C101_enough",
    "G3.Props.C101_constructor",
    "G3.Props.C101_negation",
    "G3.Props.C101_zero"
   ],
   "note": "False with the library linked statically: C101_negation (constructor; destructor after a regular shut down). C101_exact says exactly which programs run into undefined behaviour, C101_otherwise what the others do, C101_enough that LOG below FATAL needs only loglevels.cpp to come first, C101_constructor that it always needs it. C101_partial: library first (a shared library). C101_zero: what happens where the memory of objects not yet constructed is zero: LOG(INFO) counts as fatal and leaves by bad_function_call, without output."
  },
  {
   "property": "C102",
   "status": "partial",
   "theorems": [
    "G3.Props.C102_nothing",
    "G3.Props.C102_calls",
    "G3.Props.C102_end",
    "G3.Props.C102_locked",
    "G3.Props.C102_log",
    "G3.Props.C102_negation",
    "G3.Props.C102_partial"
   ],
   "note": "False: the threads of worker and sinks do not exist in the child and nothing tells the library so. C102_nothing: no sink gets anything any more, the queue only grows. C102_calls: no synchronous call returns. C102_end: the destructor does not return and a fatal event does not end the process. C102_log: each LOG returns if nobody was inside the queue at the fork; C102_locked: otherwise not even the first. C102_negation: concrete parent and child. C102_partial: what works is to shut logging down in the child and initialise it with a new worker, without destroying the old one."
  },
  {
   "property": "C103",
   "status": "partial",
   "theorems": [
    "G3.Props.C103_create",
    "G3.Props.C103_add",
    "G3.Props.C103_remove",
    "G3.Props.C103_removeAll",
    "G3.Props.C103_destroy",
    "G3.Props.C103_log",
    "G3.Props.C103_no_leak",
    "G3.Props.C103_create_one",
    "G3.Props.C103_add_one",
    "G3.Props.C103_remove_one",
    "G3.Props.C103_removeAll_one",
    "G3.Props.C103_destroy_one",
    "G3.Props.C103_log_one",
    "G3.Props.C103_partial",
    "G3.Props.C103_negation"
   ],
   "note": "False: C103_negation has a handle from addSink for a sink that is not there, an exception from addSink although the sink is there and receives everything, half a text without notice, and the end of the process by std::terminate for a thread that cannot be started, memory missing on the thread of the worker or of a sink, in the destructor of the worker, and in a LOG whose argument throws. C103_create, C103_add, C103_remove, C103_removeAll, C103_destroy, C103_log: everything each call can do, whichever requests fail; LOG is all or nothing over the sinks. C103_*_one: which request leads to what. C103_no_leak holds fully: whatever fails, as long as the process lives no thread and no sink leaks and each sink is destroyed once. C103_partial: if no request fails every program does what it should."
  },
  {
   "property": "C104",
   "status": "partial",
   "theorems": [
    "G3.Props.C104_rule",
    "G3.Props.C104_never_replaced",
    "G3.Props.C104_status",
    "G3.Props.C104_hangs",
    "G3.Props.C104_ends_partial",
    "G3.Props.C104_exact",
    "G3.Props.C104_static",
    "G3.Props.C104_negation"
   ],
   "note": "False. initializeLogging calls exit while it holds the mutex that the destructor of a worker wants: with a static worker in use, or with a static worker and none in use, the process hangs for ever, and with it every thread that initialises, shuts down or destroys a worker (C104_hangs, C104_static, C104_negation). With a worker that is not static the process ends, but messages that the worker has not dealt with are lost (C104_negation). C104_exact: exactly when the process can end. C104_ends_partial: in these cases it does end, under all schedules. C104_status: the status, and the log of static workers is complete. C104_rule: which initialisations succeed."
  },
  {
   "property": "C105",
   "status": "partial",
   "theorems": [
    "G3.Props.C105_throws",
    "G3.Props.C105_memory_back",
    "G3.Props.C105_retry",
    "G3.Props.C105_exact",
    "G3.Props.C105_partial",
    "G3.Props.C105_exit",
    "G3.Props.C105_one_request",
    "G3.Props.C105_requests",
    "G3.Props.C105_again",
    "G3.Props.C105_negation"
   ],
   "note": "False. installSignalHandler installs the handler for a signal before it records the former disposition; if recording throws, the next call records g3log's own handler as the former one, also for all signals before it. A later fatal signal of these hangs the process for ever, LOG(FATAL) exits with a code instead of by SIGABRT (C105_exit, C105_negation). And the message logged before is moved out of its place before `save` asks for memory: if that throws, it is lost (C105_negation). C105_retry: exactly what holds after the first call that returns; C105_exact: it is as it should be exactly if no earlier call got as far as installing a handler; C105_one_request: closed form for one failing request; C105_memory_back: a call with memory returns; C105_throws: a call that throws puts no worker in use; C105_requests, C105_again: what a call asks for."
  },
  {
   "property": "C106",
   "status": "partial",
   "theorems": [
    "G3.Props.C106_values_partial",
    "G3.Props.C106_finds",
    "G3.Props.C106_exact",
    "G3.Props.C106_waiting",
    "G3.Props.C106_expired",
    "G3.Props.C106_fills",
    "G3.Props.C106_negation",
    "G3.Props.C106_negation_gone",
    "G3.Props.C106_stops"
   ],
   "note": "False for arrays (and for pointers and std::ref): std::bind keeps an array as a pointer, so `char name[]\u2026; handle->call(&FileSink::changeLogFile, name)` uses the array when the thread of the sink comes to the call; by then it may have other content (C106_negation) or no longer exist, which is undefined behaviour (C106_negation_gone). Proved: with values the program behaves as if every call were made at once (C106_values_partial); what any call finds (C106_finds); exactly when this is what was there at the call (C106_exact); waiting for the future before touching the objects makes every call safe (C106_waiting); what the method can change (C106_fills); expired handles (C106_expired); after a use of an object that is gone the execution ends (C106_stops)."
  },
  {
   "property": "C107",
   "status": "partial",
   "theorems": [
    "G3.Props.C107_punctuated",
    "G3.Props.C107_only",
    "G3.Props.C107_digits",
    "G3.Props.C107_same",
    "G3.Props.C107_classic",
    "G3.Props.C107_default_partial",
    "G3.Props.C107_full",
    "G3.Props.C107_signal",
    "G3.Props.C107_reason",
    "G3.Props.C107_frame",
    "G3.Props.C107_dump",
    "G3.Props.C107_time",
    "G3.Props.C107_stamp_partial",
    "G3.Props.C107_when",
    "G3.Props.C107_default_file_partial",
    "G3.Props.C107_early_partial",
    "G3.Props.C107_negation",
    "G3.Props.C107_negation_pid"
   ],
   "note": "False for the full format and for the report of a fatal signal: thread id and process id go through a std::ostringstream, which uses the global locale, so that they read 12,345 with an English one (C107_negation_pid). The thread id is formatted by the thread of the sink: whether a message logged before std::locale::global has a punctuated id depends on which thread is faster (C107_negation). Proved: how numbers are punctuated, uniquely (C107_punctuated, C107_only), when they are not (C107_same), that the digits can be recovered (C107_digits); the default format never depends on the locale (C107_default_partial, C107_default_file_partial, C107_stamp_partial, C107_time); exactly when the full format and the signal report do (C107_full, C107_signal); frames of the stack (C107_dump); which locale is used (C107_when); a locale set before the first message is used for all of them (C107_early_partial)."
  },
  {
   "property": "C108",
   "status": "partial",
   "theorems": [
    "G3.Props.C108_exact",
    "G3.Props.C108_partial",
    "G3.Props.C108_never_returns",
    "G3.Props.C108_throws",
    "G3.Props.C108_second",
    "G3.Props.C108_again",
    "G3.Props.C108_no_leak",
    "G3.Props.C108_end",
    "G3.Props.C108_programs",
    "G3.Props.C108_negation"
   ],
   "note": "False: the destructor of the LogCapture may throw, so that without memory a fatal statement throws bad_alloc and a program that catches it goes on (C108_negation). If the memory is missing after the hook has been taken out, the hook is lost (it may never have been called), and the next fatal statement is labelled a recursive crash (C108_negation, C108_second). Without memory on the thread of the worker the process ends by std::terminate, without a report. Proved: for every set of failing requests what becomes of a fatal statement, exactly (C108_exact: the first request that fails and costs more than the end of a text decides); with memory it is as claimed (C108_partial); it never returns (C108_never_returns); if it throws, sinks, handles and logging are as before (C108_throws); nothing leaks (C108_no_leak)."
  },
  {
   "property": "C109",
   "status": "proved",
   "theorems": [
    "G3.Props.C109_call",
    "G3.Props.C109_made"
   ],
   "note": "C109_call gives the outcome of each call exactly, with the requests that decide it; C109_made: in every program the calls that have been made are those whose future has a result, in this order. Memory that the called function itself wants is the business of the client (its exceptions go into the future, C18)."
  },
  {
   "property": "C110",
   "status": "partial",
   "theorems": [
    "G3.Props.C110_active",
    "G3.Props.C110_requests",
    "G3.Props.C110_partial",
    "G3.Props.C110_log",
    "G3.Props.C110_when",
    "G3.Props.C110_lost",
    "G3.Props.C110_returns",
    "G3.Props.C110_waits",
    "G3.Props.C110_hangs",
    "G3.Props.C110_negation",
    "G3.Props.C110_add_negation"
   ],
   "note": "False: logging is shut down before ~LogWorker and bgFatal destroy the sinks, so what the destructors of sinks log then reaches no sink, not even those still attached, and only the first such entry of the process is printed on stderr (C110_negation, C110_lost); and a synchronous call in a destructor that runs on the worker thread waits for its own thread: it never returns, no sink gets anything any more, neither a fatal event nor the destructor of the worker comes to an end (C110_hangs, C110_add_negation). Proved: every run with such destructors is one of the worker with the entries logged until that point as requests, in order (C110_requests, C110_active); while the worker is in use the entry of a destructor is delivered (C110_partial); the destructor runs after the thread of the sink has ended, with all its messages processed and no reference left (C110_when); LOG in a destructor always comes back at once and touches nothing else (C110_log); without _bg synchronous calls return at once (C110_returns). On other threads a synchronous call in a destructor is the call of a client (C52)."
  },
  {
   "property": "C111",
   "status": "partial",
   "theorems": [
    "G3.Props.C111_requests",
    "G3.Props.C111_exact",
    "G3.Props.C111_partial",
    "G3.Props.C111_thread",
    "G3.Props.C111_hangs",
    "G3.Props.C111_negation",
    "G3.Props.C111_hang_negation",
    "G3.Props.C111_signal_negation"
   ],
   "note": "False: on the worker thread (removeSink, removeAllSinks) the event waits for its own thread: the process never ends, no sink gets the report or anything else any more (C111_hangs, C111_hang_negation); the same happens to a process that is ending by a signal when the destructor of a sink throws then (C111_signal_negation); and while the worker is being destroyed, or busy with a fatal message, a fatal statement in a destructor ends the process at once, with entries unprocessed in the queues of other sinks and the report only on stderr (C111_negation). Proved: exactly what such an event does in each case (C111_exact); for the worker the program is one with some of these events as fatal messages of clients (C111_requests, so C110 applies); the thread that raised it does nothing more, its sink is never destroyed (C111_thread); when the event is on the thread of a client and the worker thread and the sink threads are not held up, the process ends after a bounded number of steps and the claim holds for all sinks that no client uses (C111_partial)."
  },
  {
   "property": "C112",
   "status": "partial",
   "theorems": [
    "G3.Props.C112_active",
    "G3.Props.C112_requests",
    "G3.Props.C112_once",
    "G3.Props.C112_waits",
    "G3.Props.C112_destroyed",
    "G3.Props.C112_ends",
    "G3.Props.C112_finite",
    "G3.Props.C112_partial",
    "G3.Props.C112_lost",
    "G3.Props.C112_negation",
    "G3.Props.C112_shutdown_negation",
    "G3.Props.C112_others"
   ],
   "note": "False: a hook that cleans up by destroying the worker ends logging before the report is made: the sinks that were attached at the event get neither the report nor what the hook logs afterwards, the report is on stderr only (C112_negation); a hook that shuts logging down makes the process end at once, so that even entries logged before the event are lost (C112_shutdown_negation). Proved: the hook runs once, completely and in order before the report (C112_once) and waits for its calls and for the destructor (C112_waits, C112_destroyed); for the worker it is a client like others, and what is given to it, by the hook or by others, is exactly what was given while logging was active (C112_requests, C112_active), what the others do meanwhile is restricted only as said there (C112_others); whatever the hook does, if no sink thread sleeps, there is no endless run without new input and at its end the process has ended (C112_finite, C112_ends), so no hook on the thread of a client hangs; hooks that log, add and remove sinks lose nothing: the sinks that no client uses have processed everything due to them before the report, and the report (C112_partial); when logging is off at the end of the hook the report is only on stderr, and if the worker was destroyed everything handed over before has been processed (C112_lost)."
  },
  {
   "property": "C113",
   "status": "partial",
   "theorems": [
    "G3.Props.C113_from",
    "G3.Props.C113_whole",
    "G3.Props.C113_all",
    "G3.Props.C113_order",
    "G3.Props.C113_thread_partial",
    "G3.Props.C113_no_hook",
    "G3.Props.C113_fatal_last",
    "G3.Props.C113_overlap",
    "G3.Props.C113_real_time",
    "G3.Props.C113_sink",
    "G3.Props.C113_end",
    "G3.Props.C113_negation",
    "G3.Props.C113_hook_negation",
    "G3.Props.C113_clock_negation"
   ],
   "note": "False: the stamp is read before the entry is handed over, so entries of two threads may be inverted (C113_negation); on a single thread what a pre-fatal hook logs comes before the fatal entry although its stamps are later (C113_hook_negation); and the clock may be set back (C113_clock_negation). Proved for a clock that is not set: entries of one thread are in the order of their stamps, except for those of the hook of the fatal event that follows them (C113_thread_partial), without exception if no hook is set (C113_no_hook), and so every sink receives them (C113_sink); entries are out of order only if their statements overlap (C113_overlap), and a statement that is over before another one ends comes first with the earlier stamp (C113_real_time). A fatal entry is the last of its thread (C113_fatal_last). The log is determined by the schedule: which entries are in it (C113_all), in which order (C113_order), that each comes from one statement of its thread with the clock read at its end (C113_from, C113_whole), when the process ends (C113_end)."
  },
  {
   "property": "C114",
   "status": "partial",
   "theorems": [
    "G3.Props.C114_actions",
    "G3.Props.C114_order",
    "G3.Props.C114_done",
    "G3.Props.C114_hit",
    "G3.Props.C114_partial",
    "G3.Props.C114_negation",
    "G3.Props.C114_hang_negation"
   ],
   "note": "False in two ways. overrideSetupSignals gives everything back before it takes anything: there always is a moment at which no signal at all is handled, and a crash then kills the process with nothing logged (C114_negation). And sigaction takes effect before its old action is noted: every signal of the new set has a moment at which its arrival on the thread inside the call leaves the process hanging for ever, since the exit path then raises the signal into g3log's own handler (C114_hang_negation). Exactly: which calls of sigaction are made in which order (C114_order), what the actions of all signals are at every moment (C114_actions), that the call comes to its end in the state of the call as one step, C43 (C114_done), and how the process ends for every handled signal at every moment (C114_hit: the second window is the only exception). C114_partial: every signal is always handled or has its original action, and signals in neither set keep theirs throughout."
  },
  {
   "property": "C115",
   "status": "partial",
   "theorems": [
    "G3.Props.C115_default",
    "G3.Props.C115_signals",
    "G3.Props.C115_exact",
    "G3.Props.C115_once_partial",
    "G3.Props.C115_caught_negation",
    "G3.Props.C115_negation",
    "G3.Props.C115_twice_negation",
    "G3.Props.C115_signal",
    "G3.Props.C115_break_negation",
    "G3.Props.C115_actions"
   ],
   "note": "False in four ways. Switching fatal signal handling off still installs the exception handlers and only disables their removal: an exception of the table is then reported twice and the handlers stay for good (C115_negation). An exception of the table that the program handles is reported as fatal, and logging ends (C115_caught_negation). Installed twice (C64), it is reported twice in the usual build (C115_twice_negation). In a build with DEBUG_BREAK_AT_FATAL_SIGNAL and no debugger the breakpoint comes before the message is handed over: the log gets a report of a breakpoint and nothing of the signal (C115_break_negation). C115_exact: for every build which reports there are and which handlers remain; C115_once_partial: with signal handling, installed once, the property holds except for handled exceptions of the table; C115_signal: signals without the breakpoint or with a debugger; C115_signals, C115_default: the other functions in the other builds. Trusted: the order in which Windows asks the handlers."
  },
  {
   "property": "C116",
   "status": "partial",
   "theorems": [
    "G3.Props.C116_calendar",
    "G3.Props.C116_decode",
    "G3.Props.C116_exact",
    "G3.Props.C116_unchanged_partial",
    "G3.Props.C116_forward_partial",
    "G3.Props.C116_negation",
    "G3.Props.C116_file_stamp",
    "G3.Props.C116_names",
    "G3.Props.C116_restart",
    "G3.Props.C116_restart_negation"
   ],
   "note": "False where clocks are put back (end of summer time): every moment of the hour before is followed one hour later by one with the very same stamp, and the order is inverted (C116_negation, for every zone and every change); a program that is started again an hour after its earlier start then empties the log file of the earlier run (C116_restart_negation). C116_exact: for any two moments in any zone, order and equality of the stamps are those of what the clocks show, to the microsecond; C116_decode: the stamp and the difference to UTC give the moment back; C116_unchanged_partial, C116_forward_partial: the property holds while clocks are not changed or are put forward; C116_names, C116_restart: exactly when two log files have the same name and when a restart empties the old file (the same second restart is included). C116_calendar: the calendar used is that of POSIX. Trusted: localtime follows the calendar and the rule of the zone."
  },
  {
   "property": "C117",
   "status": "partial",
   "theorems": [
    "G3.Props.C117_lines",
    "G3.Props.C117_read_partial",
    "G3.Props.C117_any_text",
    "G3.Props.C117_forge",
    "G3.Props.C117_negation"
   ],
   "note": "False for texts with the end of a line, which the library writes as they are: a message goes on with any text whatever (C117_any_text), for every sequence of entries there is one message that prints the same (C117_forge), and the whole file is that of the other program (C117_negation; all sinks, intervals and sequences). Who can choose a text that is logged can forge entries. C117_lines: exactly how many lines an entry takes. C117_read_partial: with fields and texts without ends of lines (and fields without the separators) the independent reader Spec.readLog gives back exactly the entries. Only ordinary levels and the default format and header."
  },
  {
   "property": "C118",
   "status": "partial",
   "theorems": [
    "G3.Props.C118_never_waits",
    "G3.Props.C118_account",
    "G3.Props.C118_kept",
    "G3.Props.C118_burst_partial",
    "G3.Props.C118_negation",
    "G3.Props.C118_rounds"
   ],
   "note": "Half true: C118_never_waits: at every moment of the life of the worker a message is taken at once, however many wait. C118_account, C118_kept: exactly which messages are in memory; nothing that is due to a sink is given up. But the queues have no limit: C118_negation: for every r there is an execution in which all threads work all the time (C118_rounds) and r messages wait, for the sink if the sink is slower than the program logs, in the worker if the worker is. C118_burst_partial: in any part of any execution the backlog of a sink grows by at most the messages that come in less those it receives, so that bursts of limited length need limited memory; with C52 everything drains once the program stops logging."
  },
  {
   "property": "C119",
   "status": "partial",
   "theorems": [
    "G3.Props.C119_again_partial",
    "G3.Props.C119_like_new",
    "G3.Props.C119_negation",
    "G3.Props.C119_install_once",
    "G3.Props.C119_gap"
   ],
   "note": "True but for three things. C119_again_partial: after every earlier life, with fatal events or without, all that can be seen and the way the program ends are those of a new process in which the same exit handler is set and the stack trace of the first fatal event is known; C119_like_new: without an earlier fatal event, just those of a new process. Not like new are: C119_negation: the warning about a recursive crash shows the stack trace of a fatal event of the earlier life; C119_install_once: the signal handlers are installed by the first initialisation of the process only, a later one does not put them back; C119_gap, exactly: messages logged between two lives reach no worker, and at most the first of them is shown on stderr, namely if no message has found no logger before (before the very first initialisation the first message is kept and shown, C10)."
  },
  {
   "property": "C120",
   "status": "proved",
   "theorems": [
    "G3.Props.C120_header",
    "G3.Props.C120_written",
    "G3.Props.C120_exact",
    "G3.Props.C120_features",
    "G3.Props.C120_clash",
    "G3.Props.C120_again",
    "G3.Props.C120_ios"
   ],
   "note": "C120_features. C120_exact says what programs get that define such macros themselves (PRETTY_FUNCTION and WINDOWS_FUNCSIG have no prefix that would keep other uses apart). C120_header: the preprocessor reads back exactly the definitions; C120_written, C120_again, C120_ios: when the header is written; C120_clash: when the headers refuse a program. WINDOWS_FUNCSIG has an effect with MSVC only, PRETTY_FUNCTION with gcc, clang and MinGW only, ENABLE_VECTORED_EXCEPTIONHANDLING and DEBUG_BREAK_AT_FATAL_SIGNAL on Windows only."
  },
  {
   "property": "C121",
   "status": "partial",
   "theorems": [
    "G3.Props.C121_exact",
    "G3.Props.C121_statement_partial",
    "G3.Props.C121_signal_iff",
    "G3.Props.C121_negation",
    "G3.Props.C121_documented_hook",
    "G3.Props.C121_deaf",
    "G3.Props.C121_user_handler",
    "G3.Props.C121_same"
   ],
   "note": "C121_statement_partial: it holds when the first event is LOG(FATAL) or CHECK and the hook crashes by anything that g3log handles. C121_negation: it is false when the first event is a signal. A hook that crashes by the same signal has the process killed by the kernel without any report (the signal is blocked in its own handler); one that crashes by another handled signal, or calls abort, leaves the thread asleep for ever, nothing reported and the process not ended, because shouldDoExit lets only one signal through. C121_signal_iff: exactly when a signal is reported. C121_exact: end, logs and report for every hook that sets no hook. C121_deaf: after the first fatal signal no thread reacts to a handled signal any more. C121_documented_hook: the hook recommended for Linux, raise(SIGTRAP), ends the process before anything is reported. C121_user_handler: the same with an exit handler set by the user that returns or throws. C121_same: agreement with the model behind C47 for hooks without signals."
  },
  {
   "property": "C122",
   "status": "partial",
   "theorems": [
    "G3.Props.C122_lost",
    "G3.Props.C122_through_partial",
    "G3.Props.C122_bounded",
    "G3.Props.C122_reached",
    "G3.Props.C122_exact",
    "G3.Props.C122_negation",
    "G3.Props.C122_own_lock"
   ],
   "note": "C122_exact: the handler gets through in every schedule if and only if the thread is not just then inside the heap, inside setFatalPreLoggingHook or inside an operation of the queue of the worker. C122_negation: a crash inside malloc or free, as after damage to the heap, is never reported; the process hangs and every thread that needs memory with it. C122_lost and C122_through_partial are the two halves for arbitrary locks and programs, C122_bounded and C122_reached: schedules end. C122_own_lock: locks of the program itself do no harm, also when it logs under them. Missing in the partial theorem: threads hit while they own one of these locks, for which the claim is false. C69 has the queue down to its single operations."
  },
  {
   "property": "C123",
   "status": "partial",
   "theorems": [
    "G3.Props.C123_trace",
    "G3.Props.C123_trace_end",
    "G3.Props.C123_names",
    "G3.Props.C123_others",
    "G3.Props.C123_exact",
    "G3.Props.C123_visible",
    "G3.Props.C123_removed",
    "G3.Props.C123_silent",
    "G3.Props.C123_renamed_partial",
    "G3.Props.C123_moved",
    "G3.Props.C123_touched",
    "G3.Props.C123_emptied",
    "G3.Props.C123_extended",
    "G3.Props.C123_reopened",
    "G3.Props.C123_same",
    "G3.Props.C123_negation",
    "G3.Props.C123_nul"
   ],
   "note": "C123_renamed_partial: as long as nobody writes to the log file itself, the complete log is in it wherever it has been moved or linked to; C123_moved is the usual rotation by mv: everything goes on under the new name and the old name stays without a file. C123_exact and C123_touched say exactly what is in a file that others have changed: the file is opened without append mode, so the sink goes on at its own place. C123_emptied, C123_nul: a file that is emptied (copytruncate) starts with as many NULs as there had been characters. C123_extended: lines that others append are overwritten. C123_removed, C123_negation: after rm nothing the sink writes can be read under any name, and C123_silent: no call tells. C123_reopened: a successful changeLogFile completes the old file wherever it is and starts a proper new one. C123_visible: the sink touches no other file and no name. C123_names, C123_others: what the operations of others do. C123_trace, C123_trace_end, C123_same: the operations on the stream are those of Model/FileSink, and if nobody else is active, also with changes of the file, every name shows what Model/FileSink says. Missing in the partial theorem: removed, emptied, replaced and extended files, for which the claim is false."
  },
  {
   "property": "C124",
   "status": "partial",
   "theorems": [
    "G3.Props.C124_setup",
    "G3.Props.C124_exact",
    "G3.Props.C124_statement_partial",
    "G3.Props.C124_hangs",
    "G3.Props.C124_outside",
    "G3.Props.C124_dilemma",
    "G3.Props.C124_fault",
    "G3.Props.C124_waits",
    "G3.Props.C124_once",
    "G3.Props.C124_own",
    "G3.Props.C124_early",
    "G3.Props.C124_between",
    "G3.Props.C124_between_restored",
    "G3.Props.C124_negation",
    "G3.Props.C124_late_mask",
    "G3.Props.C124_can",
    "G3.Props.C124_masks",
    "G3.Props.C124_unblocked",
    "G3.Props.C124_unblocked_single"
   ],
   "note": "C124_statement_partial: an event on a thread of the program that does not block the signal is reported and kills the process by the signal if the worker does not block it. C124_setup: after any history without fatal events the worker has the signal mask that the thread which created it had at that moment. C124_exact: the end of every event on a thread of the program: killed by the signal, or exit with the number of the signal as status if the worker blocks it, within five steps of the worker. C124_hangs: a signal that the kernel delivers to the worker or to a sink never ends the process, because the handler sleeps in the thread that should do the work. C124_outside: if all threads of the library block the signal, it is always reported, but ends by exit. C124_dilemma: there are no masks for which a signal from outside is sure to be reported and to kill the process. C124_late_mask: blocking SIGTERM in the program after initializeLogging leaves the worker as the only possible receiver. C124_fault: a fault in a thread that blocks its signal is not reported. C124_waits, C124_own, C124_once: a blocked signal waits, for any thread or for its own, and is then taken once. C124_early: nothing is reported before initializeLogging. C124_between: a signal that comes while a fatal statement is dealt with ends the process by exit before the sinks have been waited for; C124_between_restored: one that comes after the handlers have been restored kills the process in place of the signal that was reported. C124_negation: a program that blocks SIGABRT before initializeLogging ends by exit(6) at a fatal statement. Missing in the partial theorem: events on threads of the library and signals that the worker or the thread blocks, for which the claim is false. C124_unblocked: as long as nothing is blocked, the model does what Model/FatalExit does, with the same fatal events; C124_unblocked_single draws from it that a single event can only end the process with its own number. C124_can: which steps are possible; C124_masks: what every step does to every mask."
  },
  {
   "property": "C125",
   "status": "partial",
   "theorems": [
    "G3.Props.C125_statement_partial",
    "G3.Props.C125_exact",
    "G3.Props.C125_runs",
    "G3.Props.C125_recursion",
    "G3.Props.C125_altstack",
    "G3.Props.C125_onstack",
    "G3.Props.C125_onstack_overflow",
    "G3.Props.C125_larger",
    "G3.Props.C125_negation"
   ],
   "note": "C125_statement_partial: a crash or a fatal statement is reported, with everything logged before, if all that was called had room on the stack and there is room for the handler. C125_exact: otherwise the process is killed without a report at the first operation without room, and the log is any prefix of what had been sent. C125_runs: histories with room that do not crash. C125_recursion: recursion without end is never reported, whatever the sizes. C125_altstack: an alternate stack set by the program makes no difference, because the handler is installed without SA_ONSTACK; C125_onstack and C125_onstack_overflow: with that flag and an alternate stack every crash would be reported as itself, and any call or statement without room as SIGSEGV. C125_larger: a larger stack never hurts. C125_negation: with room for the function but not for the handler nothing is reported. Missing in the partial theorem: crashes without room for the handler, for which the claim is false."
  },
  {
   "property": "C126",
   "status": "proved",
   "theorems": [
    "G3.Props.C126_exact",
    "G3.Props.C126_safe",
    "G3.Props.C126_history",
    "G3.Props.C126_statement",
    "G3.Props.C126_unload",
    "G3.Props.C126_formatter",
    "G3.Props.C126_end_counts"
   ],
   "note": "C126_statement: with any memory operations in between, waiting messages come out as without them. C126_unload: the case of a library that is unloaded. C126_exact: in every history without undefined behaviour the log and what waits are exactly the messages of the statements that have ended, with the contents of memory at that moment, told from the history alone. C126_safe: a step leads to undefined behaviour if and only if a statement that is being executed lacks its own memory or the sink its formatter; C126_history puts both together for whole histories. C126_end_counts: names changed during a statement are those of its end. C126_formatter: the condition on the formatter is needed: a library whose own function was given to overrideLogDetails must not be unloaded while a message waits."
  },
  {
   "property": "C127",
   "status": "proved",
   "theorems": [
    "G3.Props.C127_exact",
    "G3.Props.C127_possible",
    "G3.Props.C127_statement",
    "G3.Props.C127_independent",
    "G3.Props.C127_fatal",
    "G3.Props.C127_once",
    "G3.Props.C127_same"
   ],
   "note": "C127_exact: in every history what each thread has logged is what its own actions say (Spec/Nested tells it by the structure of nested statements, the model is a machine with stacks). C127_possible: exactly the histories with that structure are possible. C127_statement: a thread with complete statements has logged them inner ones first. C127_independent: what a thread logs depends only on its own actions. C127_fatal: after a fatal statement inside others its thread does and logs nothing more. C127_once: one message for each ended statement, in the order in which they end. C127_same: the streams are those of Model/Statement."
  },
  {
   "property": "C128",
   "status": "partial",
   "theorems": [
    "G3.Props.C128_through",
    "G3.Props.C128_bounded",
    "G3.Props.C128_reached",
    "G3.Props.C128_lost",
    "G3.Props.C128_others",
    "G3.Props.C128_statement_partial",
    "G3.Props.C128_exact",
    "G3.Props.C128_negation"
   ],
   "note": "Violated: C128_negation: if the signal comes while its thread is inside the heap or inside the hand-over of a LOG statement of its own, handler and thread wait for ever in every schedule, and so does every other thread that still needs that lock. C128_exact: for a signal at any moment of any schedule, everything comes to its end in every schedule if and only if the thread is not just then inside the heap or inside an operation of the queue. C128_statement_partial: any number of signals, nested ones included, on any threads, at other moments than these do no harm. C128_through: the same for any locks taken in order and any handlers that take only locks above the others. C128_bounded, C128_reached: between signals only boundedly many steps are possible and the threads come to rest. C128_lost, C128_others: the same loss for any locks and programs, also with signals on other threads."
  },
  {
   "property": "C129",
   "status": "partial",
   "theorems": [
    "G3.Props.C129_exact",
    "G3.Props.C129_statement_partial",
    "G3.Props.C129_later",
    "G3.Props.C129_negation"
   ],
   "note": "Violated: C129_negation and C129_later: changeLogFile writes the header to the file that is left and not to the new one, which begins with a note about the change and has no header at all if anything was logged before. C129_exact: for every history exactly which headers each file has (one from the very first message, one at its end from each change), with which time and text, and that a file begins with a header if and only if it is the first one and no change failed before the first message. C129_statement_partial: without changes of the file the log begins with its header, has only this one, and its text is the one in force at the first message. Missing in the partial theorem: files after a change, for which the claim is false."
  },
  {
   "property": "C130",
   "status": "partial",
   "theorems": [
    "G3.Props.C130_can",
    "G3.Props.C130_exact",
    "G3.Props.C130_lines",
    "G3.Props.C130_statement_partial",
    "G3.Props.C130_fixed",
    "G3.Props.C130_settles",
    "G3.Props.C130_from_epoch",
    "G3.Props.C130_default",
    "G3.Props.C130_negation",
    "G3.Props.C130_sinks_negation",
    "G3.Props.C130_stale_negation"
   ],
   "note": "Violated: C130_negation (TZ is set while a message waits: its stamp is in the new zone, whatever localtime_r does), C130_sinks_negation (one statement has different stamps in two sinks), C130_stale_negation (where localtime_r does not look at TZ, as in glibc, the first stamp after the change is still in the old zone, although the statement came after the change; the stamps of a file then go back while the times do not). C130_exact: for every schedule the stamp of every write: the time of the statement, in the zone that is in force when the sink formats. C130_can: which writes are possible; C130_from_epoch: for times from 1970 on a sink can always go on. C130_default: in the default format the stamp shows date and time in that zone and the microseconds of the statement. C130_settles: after TZ has been set at most one stamp of the whole process is made in an earlier zone. C130_fixed: all stamps are in the zone of a program that does not set TZ. C130_statement_partial: the property if TZ is not set between the statement and the formatting and the C library has had a look at TZ since. Missing in the partial theorem: messages that wait during a change, for which the claim is false."
  },
  {
   "property": "C131",
   "status": "partial",
   "theorems": [
    "G3.Props.C131_can",
    "G3.Props.C131_exact",
    "G3.Props.C131_stamps",
    "G3.Props.C131_system",
    "G3.Props.C131_steady",
    "G3.Props.C131_statement_partial",
    "G3.Props.C131_unset",
    "G3.Props.C131_steady_order",
    "G3.Props.C131_order_negation",
    "G3.Props.C131_negation",
    "G3.Props.C131_between_negation"
   ],
   "note": "Violated: C131_negation (where high_resolution_clock is a steady clock, setting the system clock after the first stamp makes all later stamps wrong by that amount), C131_between_negation (where it is the system clock, setting it between the two readings of the statics makes all stamps of the process wrong). C131_exact: for every schedule every stamp, in terms of what the clocks showed at the statement and at the two readings, in whole ticks; C131_stamps the same for the stamps found. C131_system, C131_steady: exactly by how much stamps are wrong with each kind of clock. C131_steady_order: with a steady clock stamps are in the order of the statements whatever happens to the system clock; with the system clock they are not (C131_order_negation). C131_unset: while the clock is not set all stamps are late by the time between the two readings. C131_can: exactly which steps are possible (the statics are read once, when the first message is formatted and not at the start of the program as the comment in time.hpp says). C131_statement_partial: the property if no time passes between the readings and the clock is not set (or, with the system clock, not between them). Missing in the partial theorem: clocks that are set, for which the claim is false."
  },
  {
   "property": "C132",
   "status": "partial",
   "theorems": [
    "G3.Props.C132_can",
    "G3.Props.C132_exact",
    "G3.Props.C132_statement_partial",
    "G3.Props.C132_kept",
    "G3.Props.C132_negation",
    "G3.Props.C132_both"
   ],
   "note": "Violated: C132_negation: log files are opened without close-on-exec, so a program started before a change of the file keeps the old one open; C132_both: one that is started during a change keeps both files. C132_exact: for every schedule exactly who has a log file open: the process as long as the sink uses the file, and every program that was started meanwhile as long as it runs. C132_kept: such a program keeps the file open until it ends, whatever the sinks do. C132_can: exactly which steps are possible. C132_statement_partial: the property if no sink has left a file since the start of a program that still runs. Missing in the partial theorem: programs that still run, for which the claim is false. Trusted: std::ofstream::open does not set close-on-exec (libstdc++, libc++)."
  },
  {
   "property": "C133",
   "status": "partial",
   "theorems": [
    "G3.Props.C133_exact",
    "G3.Props.C133_can",
    "G3.Props.C133_statement_partial",
    "G3.Props.C133_own",
    "G3.Props.C133_printf",
    "G3.Props.C133_condition",
    "G3.Props.C133_dump_negation",
    "G3.Props.C133_insert_negation",
    "G3.Props.C133_report_negation"
   ],
   "note": "Violated, as errno is not saved anywhere: C133_dump_negation: a fatal statement makes its stack dump before the operands are evaluated, so that CHECK(fd >= 0) << strerror(errno) may tell a wrong reason; C133_insert_negation: a later operand of << sees what the insertion of an earlier one did to errno; C133_report_negation: the report of the first message before initialisation changes errno if stderr cannot be written. C133_exact: for every program exactly what all operands see, and errno after all statements: the value set last in the order of the evaluation. C133_can: exactly which steps are possible. C133_own: which values count as set by the program. C133_condition: operands see what the condition of a CHECK or LOG_IF has set. C133_printf: arguments of a printf-like statement are not exposed to formatting, saving and reporting. C133_statement_partial: the property if the calls inside the library leave errno alone."
  },
  {
   "property": "C134",
   "status": "partial",
   "theorems": [
    "G3.Props.C134_exact",
    "G3.Props.C134_can",
    "G3.Props.C134_statement_partial",
    "G3.Props.C134_kept",
    "G3.Props.C134_once",
    "G3.Props.C134_negation",
    "G3.Props.C134_limit_negation"
   ],
   "note": "Violated: C134_negation: the exit message of a file sink that is destroyed goes to the standard error stream; when that is a pipe whose reader has gone, SIGPIPE ends the process and entries that wait in the other sinks are lost; C134_limit_negation: the same with SIGXFSZ when one log file reaches the limit of the size of files. C134_exact: for every schedule exactly what is in each file and which signal has ended the process. C134_can: exactly which steps are possible. C134_kept: a sink destroyed without errors of its own has all its entries in its file, also when a signal ends the process later. C134_once: after a failed exit message no further one can end the process. C134_statement_partial: the property in programs that ignore these signals."
  },
  {
   "property": "C135",
   "status": "partial",
   "theorems": [
    "G3.Props.C135_exact",
    "G3.Props.C135_caller",
    "G3.Props.C135_can",
    "G3.Props.C135_apart",
    "G3.Props.C135_statement_partial",
    "G3.Props.C135_negation"
   ],
   "note": "The first half is proved, C135_caller: the identification is the one of the calling thread at the time of the statement. The second half is violated, C135_negation: the system may give the identification of a thread that has ended to a new one. C135_apart: that is the only way: entries of different threads with the same identification are separated by the end of the first thread and the later start of the second. C135_exact: exactly which entries there are. C135_can: exactly which steps are possible. C135_statement_partial: the property as long as no thread that has logged has ended."
  },
  {
   "property": "C136",
   "status": "partial",
   "theorems": [
    "G3.Props.C136_exact",
    "G3.Props.C136_can",
    "G3.Props.C136_later",
    "G3.Props.C136_statement_partial",
    "G3.Props.C136_negation"
   ],
   "note": "Violated: C136_negation: a call through the handle goes straight into the queue of the sink and overtakes messages that wait for the worker, so that entries logged before the call have the new format. C136_exact: for every schedule exactly which entries are written and with which format: the one called for last when the message reached the sink. C136_later: an entry never has a format older than its statement. C136_can: exactly which steps are possible. C136_statement_partial: the property if no message waits for the worker at the calls."
  },
  {
   "property": "C137",
   "status": "partial",
   "theorems": [
    "G3.Props.C137_exact",
    "G3.Props.C137_log",
    "G3.Props.C137_silent",
    "G3.Props.C137_statement_partial",
    "G3.Props.C137_all",
    "G3.Props.C137_stuck",
    "G3.Props.C137_negation"
   ],
   "note": "Violated if the handle is that of a sink of another worker, C137_negation: removeSink takes the handle, removes nothing and says nothing. C137_stuck: such a sink then stays attached until its own worker removes all sinks; no removeSink can remove it any more. C137_statement_partial: the property if the worker is the one for which the sink was made. C137_exact: for every sequence of operations exactly which sinks each worker has, in which order, and which handles the program has. C137_all: removeAllSinks stops every sink of its worker. C137_log, C137_silent: exactly what the sinks get."
  }
 ]
}