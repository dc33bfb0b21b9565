import Verif.Model.LogMessage
import Verif.Model.FileName
/-
Model of /repo/src/filesink.cpp and of the file opening helpers in /repo/src/filesinkhelper.ipp.

Environment: a file system mapping path strings to contents (no links: different path strings are
different files), output streams with a buffer and a write offset, and the outcome of opening a file
and all formatted clock readings as parameters. Writes succeed here; Model/FileErrors has the same sink with
write errors, Model/FileRelease without the assertion of the constructor.
-/
namespace G3

/-- Contents of files by path. -/
abbrev FS := Str → Option Str

/-- Change of one file. -/
def FS.set (fs : FS) (p : Str) (c : Str) : FS := fun q => if q = p then some c else fs q

/-- POSIX `write` of `t` at offset `off`: overwrite, extend, fill a gap with NULs. -/
def writeAt (content : Str) (off : Nat) (t : Str) : Str :=
  if t = [] then content
  else (content ++ List.replicate (off - content.length) (Char.ofNat 0)).take off ++ t ++ content.drop (off + t.length)

/-- An open `std::ofstream`: its file, the file offset, and the text not yet handed to the system. -/
structure OStream where
  path : Str
  off : Nat
  pend : Str
deriving DecidableEq, Repr

/-- `stream << t` ([ostream]): into the stream's buffer. -/
def OStream.put (o : OStream) (t : Str) : OStream := { o with pend := o.pend ++ t }

/-- The stream hands the first `n` buffered characters to the system. A file that has vanished stays so. -/
def OStream.spill (o : OStream) (fs : FS) (n : Nat) : OStream × FS :=
  ({ o with off := o.off + (o.pend.take n).length, pend := o.pend.drop n },
   match fs o.path with
   | some c => fs.set o.path (writeAt c o.off (o.pend.take n))
   | none => fs)

/-- `std::flush`, and closing the stream. -/
def OStream.flush (o : OStream) (fs : FS) : OStream × FS := o.spill fs o.pend.length

/-- `openLogFile` / `createLogFile`, /repo/src/filesinkhelper.ipp:100-123: open with truncation; `opens` is the
outcome of the system call. -/
def createLogFile (fs : FS) (path : Str) (opens : Bool) : Option OStream × FS :=
  if opens then (some { path := path, off := 0, pend := [] }, fs.set path []) else (none, fs)

/-- Ways a FileSink can end the program. -/
inductive SinkErr
  | abortPrefix      -- abort() because of an illegal prefix, filesink.cpp:27-30
  | assertOpen       -- assert(_outptr ...), filesink.cpp:41
  | moduloZero       -- `% 0`, filesink.cpp:66
deriving DecidableEq, Repr

/-- `class FileSink`, /repo/src/g3log/filesink.hpp:28-36. -/
structure FileSink where
  detailsFn : DetailsFn
  path : Str
  prefixBackup : Str
  out : OStream
  header : Str
  firstEntry : Bool
  buffer : Str
  counter : Nat
  every : Nat
deriving DecidableEq, Repr

/-- /repo/src/filesink.cpp:22 -/
def defaultHeader : Str :=
  "\t\tLOG format: [YYYY/MM/DD hh:mm:ss uuu* LEVEL FILE->FUNCTION:LINE] message\n\n\t\t(uuu*: microseconds fractions of the seconds value)\n\n".toList

/-- `FileSink::FileSink`, /repo/src/filesink.cpp:17-42. `nameTime` is the time text of the file name, `opens1`
and `opens2` the outcomes of the two attempts to open. -/
def FileSink.new (fs : FS) (log_prefix dir id : Str) (every : Nat) (nameTime : Str) (opens1 opens2 : Bool) :
    Except SinkErr (FileSink × FS) :=
  match acceptPrefix log_prefix with
  | none => .error .abortPrefix
  | some p =>
    let file_name := createLogFileName p id nameTime
    let path1 := pathSanityFix dir file_name
    let make := fun (path : Str) (o : OStream) =>
      ({ detailsFn := .default, path := path, prefixBackup := p, out := o, header := defaultHeader, firstEntry := true,
         buffer := [], counter := 0, every := every } : FileSink)
    match createLogFile fs path1 opens1 with
    | (some o, fs') => .ok (make path1 o, fs')
    | (none, fs') =>
      let path2 := "./".toList ++ file_name
      match createLogFile fs' path2 opens2 with
      | (some o, fs'') => .ok (make path2 o, fs'')
      | (none, _) => .error .assertOpen

/-- `FileSink::addLogFileHeader`, /repo/src/filesink.cpp:114-116. -/
def FileSink.addLogFileHeader (s : FileSink) (hdrTime : Str) : FileSink :=
  { s with out := s.out.put (headerText hdrTime s.header) }

/-- `FileSink::fileWrite`, /repo/src/filesink.cpp:57-70. `_write_counter` is unbounded here; Verif.Model.WriteCounter
has it wrap. -/
def FileSink.fileWrite (E : Env) (s0 : FileSink) (fs : FS) (m : LogMessage) (hdrTime : Str) : Except SinkErr (FileSink × FS) :=
  let s1 := if s0.firstEntry then { s0.addLogFileHeader hdrTime with firstEntry := false } else s0
  let data := (toString E m s1.detailsFn).1
  let s2 := { s1 with buffer := s1.buffer ++ data, counter := s1.counter + 1 }
  if s2.every = 0 then .error .moduloZero
  else if s2.counter % s2.every = 0 then
    let (o, fs') := (s2.out.put s2.buffer).flush fs
    .ok ({ s2 with out := o, buffer := [] }, fs')
  else .ok (s2, fs)

/-- `FileSink::changeLogFile`, /repo/src/filesink.cpp:72-100. The old stream is closed (flushed) when `_outptr`
is replaced, after the new file has been opened. The last component is the returned name. -/
def FileSink.changeLogFile (s0 : FileSink) (fs : FS) (dir id now nameTime hdrTime : Str) (opens : Bool) :
    FileSink × FS × Str :=
  let file_name := createLogFileName s0.prefixBackup id nameTime
  let prospect := dir ++ file_name
  match createLogFile fs prospect opens with
  | (none, fs') =>
    ({ s0 with out := s0.out.put ("\n".toList ++ now ++
        " Unable to change log file. Illegal filename or busy? Unsuccessful log name was: ".toList ++ prospect) }, fs', [])
  | (some o, fs') =>
    let s1 := s0.addLogFileHeader hdrTime
    let out1 := s1.out.put (now ++ ("\n\tChanging log file from : ".toList ++ s1.path ++ "\n\tto new location: ".toList ++
      prospect ++ "\n".toList))
    let old_log := s1.path
    let (_, fs'') := out1.flush fs'
    let out2 := o.put (now ++ ("\n\tNew log file. The previous log file was at: ".toList ++ old_log ++ "\n".toList))
    ({ s1 with path := prospect, out := out2 }, fs'', prospect)

/-- `FileSink::~FileSink`, /repo/src/filesink.cpp:44-54; `time` is the formatted current time. The result is
the file system afterwards. -/
def FileSink.destroy (s : FileSink) (fs : FS) (time : Str) : FS :=
  let exit_msg := "g3log g3FileSink shutdown at: ".toList ++ time ++ "\n".toList
  ((s.out.put (s.buffer ++ exit_msg)).flush fs).2

/-- Everything that can happen to a FileSink between construction and destruction. `spill n` is the stream
handing buffered characters to the system by itself. -/
inductive SinkOp
  | write (m : LogMessage) (hdrTime : Str)
  | change (dir id now nameTime hdrTime : Str) (opens : Bool)
  | overrideDetails (f : DetailsFn)
  | overrideHeader (h : Str)
  | fileName
  | spill (n : Nat)

/-- One operation; the last component is the text returned to the caller (empty for procedures).
`overrideLogDetails`, `overrideLogHeader`, `fileName`: /repo/src/filesink.cpp:102-112. -/
def sinkStep (E : Env) (s : FileSink) (fs : FS) : SinkOp → Except SinkErr (FileSink × FS × Str)
  | .write m t =>
    match s.fileWrite E fs m t with
    | .error e => .error e
    | .ok (s', fs') => .ok (s', fs', [])
  | .change d i n nt ht o => .ok (s.changeLogFile fs d i n nt ht o)
  | .overrideDetails f => .ok ({ s with detailsFn := f }, fs, [])
  | .overrideHeader h => .ok ({ s with header := h }, fs, [])
  | .fileName => .ok (s, fs, s.path)
  | .spill n => .ok ({ s with out := (s.out.spill fs n).1 }, (s.out.spill fs n).2, [])

/-- A sequence of operations; results in order. -/
def sinkRun (E : Env) (s : FileSink) (fs : FS) : List SinkOp → Except SinkErr (FileSink × FS × List Str)
  | [] => .ok (s, fs, [])
  | op :: ops =>
    match sinkStep E s fs op with
    | .error e => .error e
    | .ok (s', fs', r) =>
      match sinkRun E s' fs' ops with
      | .error e => .error e
      | .ok (s'', fs'', rs) => .ok (s'', fs'', r :: rs)

end G3
