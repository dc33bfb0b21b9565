import Verif.Conformance.Message
/-
The expectations of /repo/test_unit/test_filechange.cpp, replayed on the model of the file sink (not proofs of
properties, see Conformance/Message).
-/
namespace G3.Conformance
open G3

/-- The directory of the tests, `name_path_1`, test_filechange.cpp:24: it does not exist. -/
def fakeDir : Str := "./(some_fake_DirectoryOrName_1_)".toList

/-- The sink of `main`, test_filechange.cpp:155: `addDefaultLogger("(ReplaceLogFile)", name_path_1)`. The file cannot be opened in
the directory that does not exist, but can be in the current one. -/
def fcSink : Option (FileSink × FS) :=
  match FileSink.new (fun _ => none) "(ReplaceLogFile)".toList fakeDir "g3log".toList 100 "20170427-062227".toList false true with
  | .error _ => none
  | .ok r => some r

/-- What a sequence of calls on that sink returns. -/
def fcRun (ops : List SinkOp) : Option (List Str) :=
  match fcSink with
  | none => none
  | some (s, fs) => match sinkRun tmEnv s fs ops with
    | .error _ => none
    | .ok (_, _, rs) => some rs

/-- A change of the log file that works. -/
def changeTo (dir id : Str) : SinkOp := .change dir id "now".toList "20170427-062228".toList "now".toList true

/-- `TestOf_GetFileName`, test_filechange.cpp:63-68: the file name is not empty. -/
example : fcRun [.fileName] = some ["./(ReplaceLogFile).g3log.20170427-062227.log".toList] := by decide +kernel

/-- `TestOf_ChangingLogFile`, test_filechange.cpp:70-75. -/
example : fcRun [.fileName, changeTo (fakeDir ++ "1_".toList) "g3log".toList, .fileName] =
    some ["./(ReplaceLogFile).g3log.20170427-062227.log".toList,
      "./(some_fake_DirectoryOrName_1_)1_(ReplaceLogFile).g3log.20170427-062228.log".toList,
      "./(some_fake_DirectoryOrName_1_)1_(ReplaceLogFile).g3log.20170427-062228.log".toList] := by decide +kernel

/-- `TestOf_ChangingLogFile_Id`, test_filechange.cpp:77-86: the new name begins with `foo(ReplaceLogFile).new_logger_id`. -/
example : (fcRun [changeTo "foo".toList "new_logger_id".toList, .fileName]).map
    (fun rs => rs.map fun n => decide ("foo(ReplaceLogFile).new_logger_id".toList <+: n)) = some [true, true] := by decide +kernel

/-- `TestOf_ChangingLogFile_NoId`, test_filechange.cpp:88-97: the new name begins with `foo(ReplaceLogFile)`. -/
example : (fcRun [changeTo "foo".toList [], .fileName]).map
    (fun rs => rs.map fun n => decide ("foo(ReplaceLogFile)".toList <+: n)) = some [true, true] := by decide +kernel

/-- `TestOf_ManyThreadsChangingLogFileName`, test_filechange.cpp:99-118: two changes give two names that differ. -/
example : (fcRun [changeTo "./_threadEven_1_".toList "0".toList, changeTo "./_threaOdd_2_".toList "1".toList]).map
    (fun rs => (rs.eraseDups.length, rs.all (· ≠ []))) = some (2, true) := by decide +kernel

/-- `TestOf_IllegalLogFileName`, test_filechange.cpp:120-126: the change fails and the name stays. -/
example : fcRun [.fileName, .change "XY:/".toList "g3log".toList "now".toList "20170427-062228".toList "now".toList false, .fileName] =
    some ["./(ReplaceLogFile).g3log.20170427-062227.log".toList, [], "./(ReplaceLogFile).g3log.20170427-062227.log".toList] := by
  decide +kernel

/-- `TestOf_SinkHandleDifferentId`, test_filechange.cpp:128-133: the name begins with `./AnotherLogFile.logger_id`. -/
example : (match FileSink.new (fun _ => none) "AnotherLogFile".toList fakeDir "logger_id".toList 100 "20170427-062227".toList false true with
    | .error _ => none
    | .ok (s, _) => some (s.path.take 26)) = some "./AnotherLogFile.logger_id".toList := by decide +kernel

/-- `TestOf_LegalLogFileNam`, test_filechange.cpp:135-141: parentheses are kept. -/
example : (fcRun [changeTo "(test)".toList "g3log".toList, .fileName]).map
    (fun rs => rs.map fun n => decide ("(test)".toList <:+: n)) = some [true, true] := by decide +kernel

end G3.Conformance
