import Verif.Model.FileSink
/-
The file sink of /repo/src/filesink.cpp on a system where writing can fail (disk full, quota, I/O error).

`Model/FileSink.lean` lets every write succeed. Here every transfer from a stream to the system has an outcome.
A transfer that fails leaves the `std::ofstream` with `badbit` set ([ostream.formatted.reqmts]). The sentry of
every later `operator<<` then fails and nothing is inserted ([ostream.sentry]). The sink never calls `clear()`,
never tests the stream and never enables stream exceptions (/repo/src/filesink.cpp, whole file; `clear()` at
:68 is that of the string). Only replacing the stream in `changeLogFile` (:94) gives a usable one.

What implementations do with the characters of a failed transfer differs (kept for another try, dropped, or
kept although partly written), and so does `flush` on a stream that is already bad (older libraries try to
transfer the kept characters again, newer ones do nothing). The outcome `fail k r` covers all of these.
-/
namespace G3

/-- Outcome of handing characters to the system: all taken, or an error after the first `k` were taken, upon
which the first `r` characters leave the stream's buffer. -/
inductive IOOut
  | ok
  | fail (k r : Nat)
deriving DecidableEq, Repr

/-- A file sink together with the `badbit` of its current stream. -/
structure ESink where
  sink : FileSink
  bad : Bool
deriving DecidableEq, Repr

/-- `filestream() << t`: nothing is inserted into a stream with `badbit` set. -/
def ESink.put (s : ESink) (t : Str) : ESink :=
  if s.bad then s else { s with sink := { s.sink with out := s.sink.out.put t } }

/-- The stream tries to hand its first `n` buffered characters to the system. -/
def ESink.transfer (s : ESink) (fs : FS) (n : Nat) : IOOut → ESink × FS
  | .ok => ({ s with sink := { s.sink with out := (s.sink.out.spill fs n).1 } }, (s.sink.out.spill fs n).2)
  | .fail k r =>
    ({ sink := { s.sink with out := { s.sink.out with
          off := s.sink.out.off + ((s.sink.out.pend.take n).take k).length, pend := s.sink.out.pend.drop r } }
       bad := true },
     match fs s.sink.out.path with
     | some c => fs.set s.sink.out.path (writeAt c s.sink.out.off ((s.sink.out.pend.take n).take k))
     | none => fs)

/-- `std::flush`, and closing the stream. -/
def ESink.sync (s : ESink) (fs : FS) (r : IOOut) : ESink × FS := s.transfer fs s.sink.out.pend.length r

/-- `FileSink::addLogFileHeader`, /repo/src/filesink.cpp:114-116. -/
def ESink.addLogFileHeader (s : ESink) (hdrTime : Str) : ESink := s.put (headerText hdrTime s.sink.header)

/-- `FileSink::fileWrite`, /repo/src/filesink.cpp:57-70. The buffer of the sink is cleared (:68) whatever became
of the flush. -/
def ESink.fileWrite (E : Env) (s0 : ESink) (fs : FS) (m : LogMessage) (hdrTime : Str) (r : IOOut) :
    Except SinkErr (ESink × FS) :=
  let s1 := if s0.sink.firstEntry then
      { s0.addLogFileHeader hdrTime with sink := { (s0.addLogFileHeader hdrTime).sink with firstEntry := false } }
    else s0
  let data := (toString E m s1.sink.detailsFn).1
  let s2 := { s1 with sink := { s1.sink with buffer := s1.sink.buffer ++ data, counter := s1.sink.counter + 1 } }
  if s2.sink.every = 0 then .error .moduloZero
  else if s2.sink.counter % s2.sink.every = 0 then
    let (s3, fs') := (s2.put s2.sink.buffer).sync fs r
    .ok ({ s3 with sink := { s3.sink with buffer := [] } }, fs')
  else .ok (s2, fs)

/-- `FileSink::changeLogFile`, /repo/src/filesink.cpp:72-100. `r` is the outcome of closing the old stream; its
failure is noticed by nobody. -/
def ESink.changeLogFile (s0 : ESink) (fs : FS) (dir id now nameTime hdrTime : Str) (opens : Bool) (r : IOOut) :
    ESink × FS × Str :=
  let prospect := dir ++ createLogFileName s0.sink.prefixBackup id nameTime
  match createLogFile fs prospect opens with
  | (none, fs') =>
    (s0.put ("\n".toList ++ now ++
      " Unable to change log file. Illegal filename or busy? Unsuccessful log name was: ".toList ++ prospect), fs', [])
  | (some o, fs') =>
    let s1 := s0.addLogFileHeader hdrTime
    let s2 := s1.put (now ++ ("\n\tChanging log file from : ".toList ++ s1.sink.path ++ "\n\tto new location: ".toList ++
      prospect ++ "\n".toList))
    let (_, fs'') := s2.sync fs' r
    let out2 := o.put (now ++ ("\n\tNew log file. The previous log file was at: ".toList ++ s1.sink.path ++ "\n".toList))
    ({ sink := { s2.sink with path := prospect, out := out2 }, bad := false }, fs'', prospect)

/-- `FileSink::~FileSink`, /repo/src/filesink.cpp:44-54: the flush with outcome `r`, then the stream is closed
with outcome `r'`. -/
def ESink.destroy (s : ESink) (fs : FS) (time : Str) (r r' : IOOut) : FS :=
  let (s1, fs1) := (s.put (s.sink.buffer ++ ("g3log g3FileSink shutdown at: ".toList ++ time ++ "\n".toList))).sync fs r
  (s1.sync fs1 r').2

/-- One operation with the outcome of the transfer it makes, if it makes one. -/
def eStep (E : Env) (s : ESink) (fs : FS) : SinkOp × IOOut → Except SinkErr (ESink × FS × Str)
  | (.write m t, r) =>
    match s.fileWrite E fs m t r with
    | .error e => .error e
    | .ok (s', fs') => .ok (s', fs', [])
  | (.change d i n nt ht o, r) => .ok (s.changeLogFile fs d i n nt ht o r)
  | (.overrideDetails f, _) => .ok ({ s with sink := { s.sink with detailsFn := f } }, fs, [])
  | (.overrideHeader h, _) => .ok ({ s with sink := { s.sink with header := h } }, fs, [])
  | (.fileName, _) => .ok (s, fs, s.sink.path)
  | (.spill n, r) => .ok ((s.transfer fs n r).1, (s.transfer fs n r).2, [])

/-- A sequence of operations; results in order. -/
def eRun (E : Env) (s : ESink) (fs : FS) : List (SinkOp × IOOut) → Except SinkErr (ESink × FS × List Str)
  | [] => .ok (s, fs, [])
  | op :: ops =>
    match eStep E s fs op with
    | .error e => .error e
    | .ok (s', fs', r) =>
      match eRun E s' fs' ops with
      | .error e => .error e
      | .ok (s'', fs'', rs) => .ok (s'', fs'', r :: rs)

end G3
