import Verif.Model.Levels
import Verif.Model.Time
import Verif.Model.LogMessage
import Verif.Model.FileSink
import Mathlib.Data.List.Infix
/-
The expectations of the project's own unit tests, replayed on the model:
/repo/test_unit/test_message.cpp. These are not proofs of properties; they are evidence that the model computes
what the code computes, for every test whose subject is modelled. Each example names the test and the lines of
its expectations.
-/
namespace G3.Conformance
open G3

/-! ### Formatting of messages -/

/-- `LogMessage msg{kFile, kLine, kFunction, kLevel}`, test_message.cpp:24-27. -/
def tmMsg : LogMessage :=
  LogMessage.new false 0 7 "/repo/test_unit/test_message.cpp".toList 123 "MyTest::Foo".toList INFO

def tmEnv : Env := { stamp := fun _ => "2017/04/27 06:22:27 000000".toList, thread := fun n => "140".toList ++ decNat n, custom := fun _ _ => [] }

/-- `DefaultLogDetals_toString`, test_message.cpp:32-38. -/
example : defaultDetails tmEnv tmMsg = details tmEnv tmMsg := rfl

/-- `Default_toString`, test_message.cpp:40-46: the output contains the details. -/
example : defaultDetails tmEnv tmMsg <:+: (toStringDefault tmEnv tmMsg).1 := by decide +kernel

/-- `UseOverride_4_DetailsWithThreadID_toString`, test_message.cpp:48-62, calls `overrideLogDetailsFunc` and then
`toString()`. Its calls of `verifyContent` have their result ignored: the test would not notice that the output lacks
the thread id, and in the model it does lack it, because `toString()` installs its own argument. -/
example : ¬ "1407".toList <:+: (toStringDefault tmEnv (tmMsg.overrideDetails .full)).1 := by decide +kernel

/-- `UseLogCall_4_DetailsWithThreadID_toString`, test_message.cpp:64-77: here the output has all parts. -/
example : "1407".toList <:+: (toString tmEnv tmMsg .full).1 ∧ "test_message.cpp".toList <:+: (toString tmEnv tmMsg .full).1 ∧
    "INFO".toList <:+: (toString tmEnv tmMsg .full).1 ∧ "MyTest::Foo".toList <:+: (toString tmEnv tmMsg .full).1 ∧
    "123".toList <:+: (toString tmEnv tmMsg .full).1 := by decide +kernel

/-- The text of a file after construction of a sink, the given operations and destruction. -/
def fileAfter (log_prefix dir : Str) (ops : List SinkOp) : Option Str :=
  match FileSink.new (fun _ => none) log_prefix dir "g3log".toList 1 "20170427-062227".toList true true with
  | .error _ => none
  | .ok (s, fs) =>
    match sinkRun tmEnv s fs ops with
    | .error _ => none
    | .ok (s', fs', _) => s'.destroy fs' "06:22:28".toList s'.path

def tmWarning : LogMessage :=
  { LogMessage.new false 0 7 "test_message.cpp".toList 83 "TestBody".toList WARNING with message := "testing".toList }

/-- `DefaultFormattingToLogFile`, test_message.cpp:79-92: no thread id in the file. -/
example : (fileAfter "test".toList "./".toList [.write tmWarning "now".toList]).map
    (fun c => (decide (" [1407 ".toList <:+: c), decide ("testing".toList <:+: c))) = some (false, true) := by decide +kernel

/-- `FullFormattingToLogFile`, test_message.cpp:94-109: the thread id is in the file. -/
example : (fileAfter "test".toList "./".toList [.overrideDetails .full, .write tmWarning "now".toList]).map
    (fun c => decide (" [1407 ".toList <:+: c)) = some true := by decide +kernel

/-! ### Fractions of seconds -/

/-- `GetFractional_Empty_buffer_ExpectDefaults`, test_message.cpp:139-145. -/
example : getFractional [] 0 = .nanosecondDefault ∧ getFractional [] 100 = .nanosecondDefault := by decide
/-- `GetFractional_MilliSeconds`, test_message.cpp:147-151. -/
example : getFractional "%f3".toList 0 = .millisecond := by decide
/-- `GetFractional_Microsecond`, test_message.cpp:153-157. -/
example : getFractional "%f6".toList 0 = .microsecond := by decide
/-- `GetFractional_Nanosecond`, test_message.cpp:159-163. -/
example : getFractional "%f9".toList 0 = .nanosecond := by decide
/-- `GetFractional_NanosecondDefault`, test_message.cpp:165-169. -/
example : getFractional "%f".toList 0 = .nanosecondDefault := by decide
/-- `GetFractional_All`, test_message.cpp:171-191. -/
example : getFractional "%f, %f9, %f6, %f3".toList 0 = .nanosecondDefault ∧
    getFractional "%f, %f9, %f6, %f3".toList 4 = .nanosecond ∧
    getFractional "%f, %f9, %f6, %f3".toList 9 = .microsecond ∧
    getFractional "%f, %f9, %f6, %f3".toList 14 = .millisecond := by decide

/-- `k2017_April_27th`, test_message.cpp:21, as nanoseconds. -/
def april : Int := 1493274147 * 1000000000

/-- `FractionalToString_SizeCheck`, test_message.cpp:193-205. -/
example : fracToString april .nanosecond = .ok "000000000".toList ∧ fracToString april .nanosecondDefault = .ok "000000000".toList ∧
    fracToString april .microsecond = .ok "000000".toList ∧ fracToString april .millisecond = .ok "000".toList := by decide +kernel

/-- `FractionalToStringNanoPadded`, `...12NanoPadded`, `...MicroPadded`, `...MilliPadded`, test_message.cpp:207-236. -/
example : fracToString 0 .nanosecond = .ok "000000000".toList ∧ fracToString 0 .nanosecondDefault = .ok "000000000".toList ∧
    fracToString 0 .microsecond = .ok "000000".toList ∧ fracToString 0 .millisecond = .ok "000".toList := by decide +kernel

/-- The broken-down time of `k2017_April_27th` in UTC, as `localtime_r` gives it with TZ="". -/
def aprilTM (s : Int) : TM := if s = 1493274147 then ⟨2017, 4, 27, 6, 22, 27⟩ else ⟨1970, 1, 1, 0, 0, 0⟩

def aprilText (fmt : Str) : Option Str :=
  match localtimeFormatted (fun _ _ => []) aprilTM false april fmt with
  | some (.ok (.text t)) => some t
  | _ => none

/-- `localtime_formatted`, test_message.cpp:240-267. -/
example : aprilText "%Y-%m-%d %H:%M:%S".toList = some "2017-04-27 06:22:27".toList ∧
    aprilText "%H:%M:%S %f6".toList = some "06:22:27 000000".toList ∧
    aprilText "%H:%M:%S %f".toList = some "06:22:27 000000000".toList ∧
    aprilText "%H:%M:%S %f3".toList = some "06:22:27 000".toList := by decide +kernel

/-- `CppSupport`, test_message.cpp:111-137: the second format prints the conversions themselves. -/
example : aprilText "%%Y/%%m/%%d %%H:%%M:%%S = %Y/%m/%d %H:%M:%S".toList =
    some "%Y/%m/%d %H:%M:%S = 2017/04/27 06:22:27".toList := by decide +kernel

/-! ### Levels -/

/-- A registry with the four default levels and the given states. -/
def four (d i w f : Bool) : Registry :=
  [(100, ⟨d, DEBUG⟩), (300, ⟨i, INFO⟩), (500, ⟨w, WARNING⟩), (1000, ⟨f, FATAL⟩)]

/-- What `getAll` returns after the calls. -/
def after (ops : List LevelOp) : Registry := (levelRun defaultLevels ops).2
/-- What the calls return. -/
def outs (ops : List LevelOp) : List LevelOut := (levelRun defaultLevels ops).1

/-- `Level.Default`, test_message.cpp:306-311. -/
example : after [.reset] = four true true true true := by decide +kernel
/-- `DefaultChanged_only_change_at_initialization`, test_message.cpp:313-330. -/
example : after [.reset, .add INFO false] = four true false true true := by decide +kernel
/-- `DefaultChanged_log_levels`, test_message.cpp:332-349. -/
example : after [.reset, .disable INFO] = four true false true true := by decide +kernel
/-- `Reset`, test_message.cpp:351-363. -/
example : after [.disableAll] = four false false false false ∧ after [.disableAll, .reset] = four true true true true := by decide +kernel
/-- `AllDisabled`, test_message.cpp:365-378. -/
example : after [.reset] ≠ four false false false false ∧ after [.reset, .disableAll] = four false false false false := by decide +kernel
/-- `setHighestLogLevel_high_end`, test_message.cpp:380-398. -/
example : after [.reset, .enableAll, .disable FATAL, .setHighest FATAL] = four false false false true := by decide +kernel
/-- `setHighestLogLevel_low_end`, test_message.cpp:400-417. -/
example : after [.reset, .disableAll, .setHighest DEBUG] = four true true true true := by decide +kernel
/-- `setHighestLogLevel_middle`, test_message.cpp:419-436. -/
example : after [.reset, .enableAll, .setHighest WARNING] = four false false true true := by decide +kernel
/-- `setHighestLogLevel_StepWiseDisableAll`, test_message.cpp:438-478. -/
example : after [.reset, .setHighest DEBUG] = four true true true true ∧
    after [.reset, .setHighest DEBUG, .setHighest INFO] = four false true true true ∧
    after [.reset, .setHighest DEBUG, .setHighest INFO, .setHighest WARNING] = four false false true true ∧
    after [.reset, .setHighest DEBUG, .setHighest INFO, .setHighest WARNING, .setHighest FATAL] = four false false false true := by
  decide +kernel
/-- `Print`, test_message.cpp:480-484. -/
example : levelsToString (after [.reset]) =
    "name: DEBUG level: 100 status: 1\nname: INFO level: 300 status: 1\nname: WARNING level: 500 status: 1\nname: FATAL level: 1000 status: 1\n".toList := by
  decide +kernel

/-- `LEVELS MYINFO{WARNING.value + 1, "MyInfoLevel"}`, test_message.cpp:491. -/
def MYINFO : Level := ⟨WARNING.value + 1, "MyInfoLevel".toList⟩

/-- The defaults with `MYINFO` added. -/
def withMine : Registry :=
  [(100, ⟨true, DEBUG⟩), (300, ⟨true, INFO⟩), (500, ⟨true, WARNING⟩), (501, ⟨true, MYINFO⟩), (1000, ⟨true, FATAL⟩)]

/-- `AddOneEnabled_option1`, `AddOneEnabled_option2`, test_message.cpp:486-518. -/
example : after [.add MYINFO true] = withMine ∧ after [.add1 MYINFO] = withMine := by decide +kernel
/-- `Addlevel_using_addLevel`, test_message.cpp:520-532, and `Addlevel__enabled`, test_message.cpp:570-582. -/
example : outs [.getStatus MYINFO, .add1 MYINFO, .getStatus MYINFO] = [.status .absent, .unit, .status .enabled] := by decide +kernel
/-- `Addlevel_using_addLogLevel_disabled`, test_message.cpp:534-546. -/
example : outs [.getStatus MYINFO, .add MYINFO false, .getStatus MYINFO] = [.status .absent, .unit, .status .disabled] := by decide +kernel
/-- `Addlevel__disabled`, test_message.cpp:548-568. -/
example : outs [.getStatus MYINFO, .enable MYINFO, .getStatus MYINFO, .set MYINFO true, .getStatus MYINFO, .add MYINFO false,
    .getStatus MYINFO] = [.status .absent, .unit, .status .absent, .unit, .status .absent, .unit, .status .disabled] := by
  decide +kernel

end G3.Conformance
