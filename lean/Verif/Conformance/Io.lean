import Verif.Conformance.Message
import Verif.Model.Program
import Verif.Model.Signals
/-
The expectations of /repo/test_unit/test_io.cpp and /repo/test_unit/test_fatal.cpp, replayed on the model of macros, captures and
front end (not proofs of properties, see Conformance/Message).

The tests read the log file after the logger is gone. Here the text of the file is the text of the messages handed to the
worker, in order; that these are what the file has at the end is C51 and C71.
-/
namespace G3.Conformance
open G3

/-- A LOG statement of the tests. -/
def st (l : Level) (ins : List Ins) : LogStmt :=
  { file := "/repo/test_unit/test_io.cpp".toList, line := 341, function := "TestBody".toList, level := l, expression := [], signal := SIGABRT,
    dump := "dump".toList, now := 0, tid := 7, ins := ins }

/-- `LOG(l) << t`. -/
def lg (l : Level) (t : String) : PStep := .log (st l [.stream t.toList])

def ioSrc : Src := ⟨"g3log.cpp".toList, "shutDownLoggingForActiveOnly".toList⟩

/-- The warning of `shutDownLoggingForActiveOnly`. -/
def ioWarn : LogMessage := inactiveWarning ioSrc false 0 7

/-- `RestoreFileLogger`, testing_helpers.cpp:113-134: worker 1, and an exit handler that returns. -/
def begin : List FOp := [.init (some 1), .setHandler (.custom true)]

/-- `logger.reset()`: `~LogWorker` calls `shutDownLoggingForActiveOnly` for its own worker (logworker.cpp:71). -/
def reset : List FOp := [.shutdownActive true ioWarn (some 1)]

/-- LOG statements and calls on the registry, beginning with registry `r`. -/
def prog (r : Registry) (p : List PStep) : List FOp := progOps false defaultMessageSize r p

/-- The effects of a program from its start. -/
def effs (ops : List FOp) : List Eff := (fRun tmEnv ioSrc 5 Front.start ops).2.1

/-- Text that the worker is given. `mockFatalCall`, testing_helpers.cpp:42-48, hands the fatal message on as a normal one. -/
def content : List Eff → Str
  | [] => []
  | .save _ m :: es => (toStringDefault tmEnv m).1 ++ content es
  | .handler m :: es => (toStringDefault tmEnv m.base).1 ++ content es
  | _ :: es => content es

/-- `mockFatalMessage()`: the text of the last fatal message. -/
def mock : List Eff → Str
  | [] => []
  | .handler m :: es => if mock es = [] then (toStringDefault tmEnv m.base).1 else mock es
  | _ :: es => mock es

/-- `g_fatal_counter`: how often a hook other than the library's ran. -/
def hooks : List Eff → Nat
  | [] => 0
  | .hook i :: es => (if i = 0 then 0 else 1) + hooks es
  | _ :: es => hooks es

/-- `verifyContent`. -/
def has (c : Str) (t : String) : Bool := decide (t.toList <:+: c)

/-- A program run inside `RestoreFileLogger`, with the default levels: the text of the file. -/
def logged (p : List PStep) : Str := content (effs (begin ++ prog defaultLevels p ++ reset))

/-! ### test_io.cpp -/

/-- `No_Logger_Initialized___LevelsAreONByDefault`, test_io.cpp:50-61. -/
example : outs [.logLevel DEBUG, .logLevel INFO, .logLevel WARNING, .logLevel FATAL] = [.bool true, .bool true, .bool true, .bool true] ∧
    DEBUG.value = 100 ∧ INFO.value = 300 ∧ WARNING.value = 500 ∧ FATAL.value = 1000 ∧ CONTRACT.value = 2000 ∧
    isLoggingInitialized Front.start = false := by decide +kernel

/-- `No_Logger_Initialized___Expecting_LOG_calls_to_be_Still_OKish`, test_io.cpp:63-87 and :89-114: of the messages before the
initialization the first comes out later, the second is lost. -/
example : (fun c => (has c "Hey. I am not instantiated", has c "should be ignored", has c "pulled in"))
    (content (effs (prog defaultLevels [lg INFO "Hey. I am not instantiated", lg INFO "should be ignored"] ++ begin ++
      prog defaultLevels [lg INFO "pulled in"] ++ reset))) = (true, false, true) := by decide +kernel

/-- `Levels_StdFind` and `Levels_Operator`, test_io.cpp:117-150. -/
example : INFO ∈ [INFO, WARNING, FATAL] ∧ WARNING ∈ [INFO, WARNING, FATAL] ∧ DEBUG ∉ [INFO, WARNING, FATAL] ∧ INFO ≠ WARNING := by decide +kernel

/-- `Shutdown`, test_io.cpp:152-168. -/
example : (fun c => (has c "First message", has c "Second message", has c "Not yet shutdown", has c "will not make it"))
    (content (effs (begin ++ prog defaultLevels [lg INFO "First message", lg INFO "Second message", lg INFO "Not yet shutdown"] ++ reset ++
      prog defaultLevels [lg INFO "will not make it"]))) = (true, true, true, false) := by decide +kernel

/-- `Shutdownx2`, test_io.cpp:170-183. -/
example : (fun c => (has c "Not yet shutdown", has c "will not make it"))
    (content (effs (begin ++ prog defaultLevels [lg INFO "Not yet shutdown"] ++ reset ++ [.shutdown] ++
      prog defaultLevels [lg INFO "will not make it"]))) = (true, false) := by decide +kernel

/-- `ShutdownActiveLogger`, test_io.cpp:185-198. -/
example : (fun c => (has c "Not yet shutdown", has c "will not make it"))
    (content (effs (begin ++ prog defaultLevels [lg INFO "Not yet shutdown"] ++ [.shutdownActive true ioWarn (some 1)] ++
      prog defaultLevels [lg INFO "will not make it"] ++ reset))) = (true, false) ∧
    (shutDownLoggingForActiveOnly true ioWarn (fRun tmEnv ioSrc 5 Front.start begin).1 (some 1)).2 = true := by decide +kernel

/-- `DoNotShutdownActiveLogger`, test_io.cpp:200-213: for another worker the call does nothing. -/
example : (fun c => (has c "Not yet shutdown", has c "WILL make it"))
    (content (effs (begin ++ prog defaultLevels [lg INFO "Not yet shutdown"] ++ [.shutdownActive true ioWarn (some 2)] ++
      prog defaultLevels [lg INFO "WILL make it"] ++ reset))) = (true, true) ∧
    (shutDownLoggingForActiveOnly true ioWarn (fRun tmEnv ioSrc 5 Front.start begin).1 (some 2)).2 = false := by decide +kernel

/-- `LOGTest.LOG`, test_io.cpp:215-229. -/
example : has (logged [lg INFO "test LOG(INFO)"]) "test LOG(INFO)" = true := by decide +kernel

/-- `LOG_F`, test_io.cpp:233-249; the results of `vsnprintf` are given. -/
example : (fun c => (has c "test INFO 123", has c "test DEBUG 1.123456", has c "test WARNING yello"))
    (logged [.log (st INFO [.printf "test INFO %d".toList (some "test INFO 123".toList)]),
      .log (st DEBUG [.printf "test DEBUG %f".toList (some "test DEBUG 1.123456".toList)]),
      .log (st WARNING [.printf "test WARNING %s".toList (some "test WARNING yello".toList)])]) = (true, true, true) := by decide +kernel

/-- `LogTest.LOG`, test_io.cpp:252-266. -/
example : (fun c => (has c "test INFO 123", has c "test DEBUG 1.123456", has c "test WARNING yello"))
    (logged [.log (st INFO [.stream "test INFO ".toList, .stream "123".toList]),
      .log (st DEBUG [.stream "test DEBUG ".toList, .stream "1.123456".toList]),
      .log (st WARNING [.stream "test WARNING ".toList, .stream "yello".toList])]) = (true, true, true) := by decide +kernel

/-- `LOG_F_IF` and `LOG_IF`, test_io.cpp:303-329, on the model of the macros. -/
example : ((LOG_IF DEBUG (fun s => (0, s)) (fun s => ("test DEBUG 1.123456".toList, s))
    (LOG_IF INFO (fun s => (1, s)) (fun s => ("test INFO 123".toList, s)) ({ reg := defaultLevels, out := [], world := () } : MState Unit))).out).map
      Capture.text = ["test INFO 123".toList] := by decide +kernel

/-- `LEVELS MYINFO{WARNING.value + 1, {"MY_INFO_LEVEL"}}`, test_io.cpp:333. -/
def myInfo (n : Int) : Level := ⟨WARNING.value + n, "MY_INFO_LEVEL".toList⟩

/-- `AddANonFatal`, test_io.cpp:331-347, and `AddANonFatal__DidtAddItToEnabledValue`, test_io.cpp:410-424. -/
example : has (logged [.levels (.add (myInfo 1) true), lg (myInfo 1) "Testing my own custom level"])
    "MY_INFO_LEVEL [test_io.cpp->TestBody:341" = true := by decide +kernel

/-- `AddANonFatal__ThenReset`, test_io.cpp:365-373. -/
example : outs [.logLevel (myInfo 2), .add (myInfo 2) true, .logLevel (myInfo 2), .reset, .logLevel (myInfo 2)] =
    [.bool false, .unit, .bool true, .unit, .bool false] := by decide +kernel

/-- `AddANonFatal__DidNotAddItToEnabledValue1` and `...2`, test_io.cpp:375-408. -/
example : has (logged [lg (myInfo 2) "Testing my own custom level"]) "MY_INFO_LEVEL" = false := by decide +kernel

/-- `DynamicLogging_IS_ENABLED`, test_io.cpp:426-456. -/
example : outs [.add DEBUG false, .logLevel DEBUG, .logLevel INFO, .logLevel WARNING, .logLevel FATAL,
      .add INFO false, .logLevel DEBUG, .logLevel INFO, .logLevel WARNING, .logLevel FATAL,
      .add WARNING false, .logLevel DEBUG, .logLevel INFO, .logLevel WARNING, .logLevel FATAL,
      .add FATAL false, .logLevel DEBUG, .logLevel INFO, .logLevel WARNING, .logLevel FATAL] =
    [.unit, .bool false, .bool true, .bool true, .bool true, .unit, .bool false, .bool false, .bool true, .bool true,
     .unit, .bool false, .bool false, .bool false, .bool true, .unit, .bool false, .bool false, .bool false, .bool false] := by decide +kernel

/-- `DynamicLogging_No_Logs_If_Disabled`, test_io.cpp:457-490. -/
example : has (logged [.log (st DEBUG [.printf "This %s SHOULD  appear in the %s".toList (some "This msg SHOULD  appear in the log".toList)])])
      "This msg SHOULD  appear in the log" = true ∧
    has (logged [.levels (.add DEBUG false), lg DEBUG "This message should never appear in the log"]) "never appear" = false := by decide +kernel

/-- `DynamicLogging_No_Fatal_If_Disabled`, test_io.cpp:491-514, and `DynamicLogging_Check_...`, test_io.cpp:516-535. -/
example : has (mock (effs (begin ++ prog defaultLevels [lg FATAL "This IS fatal"]))) "This IS fatal" = true ∧
    mock (effs (begin ++ prog defaultLevels [.levels (.add FATAL false), lg FATAL "This is NOT fatal"])) = [] := by decide +kernel

/-! ### test_fatal.cpp -/

/-- `LOGF__FATAL`, test_fatal.cpp:42-54. -/
example : (fun e => (has (mock e) "EXIT trigger caused by ", has (mock e) "This message should throw 0", has (mock e) "FATAL",
      has (content e) "This message should throw 0", has (content e) "FATAL"))
    (effs (begin ++ prog defaultLevels [.log (st FATAL [.printf "This message should throw %d".toList (some "This message should throw 0".toList)])] ++ reset)) =
      (true, true, true, true, true) := by decide +kernel

/-- `LOG_preFatalLogging_hook`, test_fatal.cpp:165-183: a hook that was set runs once; a new initialization removes it. -/
example : hooks (effs (begin ++ [.setHook ⟨5, []⟩] ++ prog defaultLevels [lg FATAL "This message is fatal"] ++ reset)) = 1 ∧
    hooks (effs (begin ++ prog defaultLevels [lg FATAL "This message is fatal"] ++ reset)) = 0 ∧
    hooks (effs (begin ++ [.setHook ⟨5, []⟩] ++ reset ++ begin ++ prog defaultLevels [lg FATAL "This message is fatal"] ++ reset)) = 0 := by
  decide +kernel

/-- `LOG_FATAL`, test_fatal.cpp:185-201. -/
example : (fun e => (has (mock e) "EXIT trigger caused by ", has (mock e) "This message is fatal", has (mock e) "FATAL",
      has (content e) "This message is fatal", has (content e) "EXIT trigger caused by "))
    (effs (begin ++ prog defaultLevels [lg FATAL "This message is fatal"] ++ reset)) = (true, true, true, true, true) := by decide +kernel

/-- `LOG_IF__FATAL` and `LOG_IF__FATAL__NO_THROW`, test_fatal.cpp:218-239. -/
example : ((LOG_IF FATAL (fun s => (0, s)) (fun s => ("should NOT throw".toList, s))
    (LOG_IF FATAL (fun s => (1, s)) (fun s => ("This message should throw. xyz ".toList, s))
    (LOG_IF WARNING (fun s => (0, s)) (fun s => ("This message should NOT be written".toList, s))
      ({ reg := defaultLevels, out := [], world := () } : MState Unit)))).out).map Capture.text = ["This message should throw. xyz ".toList] := by decide +kernel

/-- A statement CHECK(1 >= 2) << t. -/
def chk (e t : String) : PStep := .log { st CONTRACT [.stream t.toList] with expression := e.toList }

/-- The CHECK macro evaluates no level (`CHECK_F_Test`, `CHECK_Test`, test_fatal.cpp:242-280): its capture is destroyed in any case. -/
def checked (e t : String) : List FOp := ((match chk e t with | .log s => s.op false defaultMessageSize | _ => none)).toList

/-- `CHECK__thisWILL_PrintErrorMsg` and its siblings, test_fatal.cpp:242-280. -/
example : (fun e => (has (mock e) "EXIT trigger caused by ", has (content e) "CONTRACT", has (content e) "CHECK(1 >= 2)",
      has (content e) "This message is added to throw message and log"))
    (effs (begin ++ checked "1 >= 2" "This message is added to throw message and log" ++ reset)) = (true, true, true, true) := by decide +kernel

/-- `CHECK_ThatWontThrow`, test_fatal.cpp:281-293. -/
example : (CHECK "1 == 1".toList (fun s => (1, s)) (fun s => ("This message should never appear in the log".toList, s))
    ({ reg := defaultLevels, out := [], world := () } : MState Unit)).out = [] := by decide +kernel

/-- `CHECK_runtimeError`, test_fatal.cpp:295-322: the exception of the exit handler leaves the statement. -/
example : (fRun tmEnv ioSrc 5 (fRun tmEnv ioSrc 5 Front.start [.init (some 1), .setHandler (.custom false)]).1 [(checked "i < size_" "").getD 0 .shutdown]).2.2 = .ok ∧
    (fStep tmEnv ioSrc 5 (fRun tmEnv ioSrc 5 Front.start [.init (some 1), .setHandler (.custom false)]).1 ((checked "i < size_" "").getD 0 .shutdown)).2.2 = .thrown := by
  decide +kernel

/-- `AddFatal`, test_fatal.cpp:325-349. -/
def DEADLY : Level := ⟨FATAL.value + 1, "DEADLY".toList⟩
example : wasFatal DEADLY = true ∧
    (fun e => (hooks e, !(mock e).isEmpty, has (content e) "DEADLY [test_io.cpp->TestBody:341"))
      (effs (begin ++ [.setHook ⟨5, []⟩] ++ prog defaultLevels [.levels (.add DEADLY true), lg DEADLY "Testing my own custom level"] ++ reset)) =
        (1, true, true) := by decide +kernel

/-! ### Signals in test_fatal.cpp -/

def sigEnv : SigEnv := ⟨false, fun _ => true⟩

/-- After `initializeLogging` in a program that had set nothing up. -/
def sig0 : SigState := installSignalHandler sigEnv (SigState.start fun _ => .dfl)

/-- The user calls `sigaction(SIGTERM, handler h)`. -/
def userSIGTERM (h : Nat) (s : SigState) : SigState := { s with disp := setAt s.disp SIGTERM (.user h) }

/-- `FatalSIGTERM__UsingDefaultHandler`, test_fatal.cpp:58-65: SIGTERM is the library's. -/
example : sig0.disp SIGTERM = .g3log := by decide +kernel

/-- `FatalSIGTERM__UsingCustomHandler`, test_fatal.cpp:123-139: overriding without SIGTERM and installing another handler. -/
example : (userSIGTERM 1 (overrideSetupSignals sigEnv (userSIGTERM 1 sig0) [SIGILL, SIGABRT, SIGFPE])).disp SIGTERM = .user 1 := by decide +kernel

/-- `FatalSIGTERM__VerifyingOldCustomHandler`, test_fatal.cpp:141-160, which runs after the test before it: the handler in force
before `overrideSetupSignals` comes back. -/
example : (restoreSignalHandler sigEnv (overrideSetupSignals sigEnv
      (userSIGTERM 2 (userSIGTERM 1 (overrideSetupSignals sigEnv (userSIGTERM 1 sig0) [SIGILL, SIGABRT, SIGFPE])))
      [SIGILL, SIGABRT, SIGFPE, SIGTERM]) SIGTERM).disp SIGTERM = .user 2 := by decide +kernel

end G3.Conformance
