import Verif.Model.FileSink
/-
The file sink of /repo/src/filesink.cpp compiled with `NDEBUG` (a release build).

`assert(_outptr && ...)` (/repo/src/filesink.cpp:41) is then no code at all. When both attempts to open a file have
failed, the constructor returns normally with `_outptr` null. `filestream()` dereferences that pointer
(/repo/src/g3log/filesink.hpp:39-41), which is undefined behaviour.
-/
namespace G3

/-- Ways a FileSink of a release build can go wrong. -/
inductive RelErr
  | sink (e : SinkErr)
  | nullStream         -- `*(_outptr.get())` with a null pointer, filesink.hpp:40
deriving DecidableEq, Repr

/-- A sink whose `_outptr` may be null; `sink.out` has no meaning then. -/
structure RelSink where
  sink : FileSink
  null : Bool
deriving DecidableEq, Repr

/-- `FileSink::FileSink`, /repo/src/filesink.cpp:17-42, without the assertion. -/
def RelSink.new (fs : FS) (log_prefix dir id : Str) (every : Nat) (nameTime : Str) (opens1 opens2 : Bool) :
    Except RelErr (RelSink × FS) :=
  match acceptPrefix log_prefix with
  | none => .error (.sink .abortPrefix)
  | some p =>
    let file_name := createLogFileName p id nameTime
    let path1 := pathSanityFix dir file_name
    let make := fun (path : Str) (o : OStream) =>
      ({ detailsFn := .default, path := path, prefixBackup := p, out := o, header := defaultHeader, firstEntry := true,
         buffer := [], counter := 0, every := every } : FileSink)
    match createLogFile fs path1 opens1 with
    | (some o, fs') => .ok (⟨make path1 o, false⟩, fs')
    | (none, fs') =>
      let path2 := "./".toList ++ file_name
      match createLogFile fs' path2 opens2 with
      | (some o, fs'') => .ok (⟨make path2 o, false⟩, fs'')
      | (none, fs'') => .ok (⟨make path2 { path := [], off := 0, pend := [] }, true⟩, fs'')

/-- `FileSink::fileWrite`, /repo/src/filesink.cpp:57-70. With a null stream: the header (:59, :115) and the flush
(:67) dereference it; otherwise the entry is only appended to the buffer. -/
def RelSink.fileWrite (E : Env) (s : RelSink) (fs : FS) (m : LogMessage) (hdrTime : Str) : Except RelErr (RelSink × FS) :=
  if s.null then
    if s.sink.firstEntry then .error .nullStream
    else if s.sink.every = 0 then .error (.sink .moduloZero)
    else if (s.sink.counter + 1) % s.sink.every = 0 then .error .nullStream
    else .ok (⟨{ s.sink with buffer := s.sink.buffer ++ (toString E m s.sink.detailsFn).1, counter := s.sink.counter + 1 }, true⟩, fs)
  else
    match s.sink.fileWrite E fs m hdrTime with
    | .error e => .error (.sink e)
    | .ok (s', fs') => .ok (⟨s', false⟩, fs')

/-- `FileSink::changeLogFile`, /repo/src/filesink.cpp:72-100. With a null stream both branches dereference it: the
message about the failure (:80), or the header in the old file (:85, :115). -/
def RelSink.changeLogFile (s : RelSink) (fs : FS) (dir id now nameTime hdrTime : Str) (opens : Bool) :
    Except RelErr (RelSink × FS × Str) :=
  if s.null then .error .nullStream
  else
    let (s', fs', r) := s.sink.changeLogFile fs dir id now nameTime hdrTime opens
    .ok (⟨s', false⟩, fs', r)

/-- `FileSink::~FileSink`, /repo/src/filesink.cpp:44-54. -/
def RelSink.destroy (s : RelSink) (fs : FS) (time : Str) : Except RelErr FS :=
  if s.null then .error .nullStream else .ok (s.sink.destroy fs time)

/-- One operation. `overrideLogDetails`, `overrideLogHeader`, `fileName`: /repo/src/filesink.cpp:102-112. -/
def relStep (E : Env) (s : RelSink) (fs : FS) : SinkOp → Except RelErr (RelSink × FS × Str)
  | .write m t =>
    match s.fileWrite E fs m t with
    | .error e => .error e
    | .ok (s', fs') => .ok (s', fs', [])
  | .change d i n nt ht o => s.changeLogFile fs d i n nt ht o
  | .overrideDetails f => .ok ({ s with sink := { s.sink with detailsFn := f } }, fs, [])
  | .overrideHeader h => .ok ({ s with sink := { s.sink with header := h } }, fs, [])
  | .fileName => .ok (s, fs, s.sink.path)
  | .spill n =>
    if s.null then .ok (s, fs, [])
    else .ok ({ s with sink := { s.sink with out := (s.sink.out.spill fs n).1 } }, (s.sink.out.spill fs n).2, [])

/-- A sequence of operations; results in order. -/
def relRun (E : Env) (s : RelSink) (fs : FS) : List SinkOp → Except RelErr (RelSink × FS × List Str)
  | [] => .ok (s, fs, [])
  | op :: ops =>
    match relStep E s fs op with
    | .error e => .error e
    | .ok (s', fs', r) =>
      match relRun E s' fs' ops with
      | .error e => .error e
      | .ok (s'', fs'', rs) => .ok (s'', fs'', r :: rs)

/-- The whole life of a sink: operations, then destruction. The result is what the caller got and the file system. -/
def relLife (E : Env) (s : RelSink) (fs : FS) (ops : List SinkOp) (time : Str) : Except RelErr (List Str × FS) :=
  match relRun E s fs ops with
  | .error e => .error e
  | .ok (s', fs', rs) =>
    match s'.destroy fs' time with
    | .error e => .error e
    | .ok fs'' => .ok (rs, fs'')

end G3
