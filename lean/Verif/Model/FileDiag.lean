import Verif.Model.FileSink
/-
What the file sink writes to stderr: /repo/src/filesink.cpp and /repo/src/filesinkhelper.ipp once more, each function with the text it
sends to `std::cerr` as a second result. Props/FileDiag proves that apart from this text the functions are those of Model/FileName and
Model/FileSink.

Environment: `fb` is the text of `rdstate()` of a new stream whose `open` has failed (`failbit`; the number is up to the standard
library). A failed `assert` writes a text of its own to stderr, which is not modelled.
-/
namespace G3

/-- `isValidFilename`, /repo/src/filesinkhelper.ipp:26-38. -/
def isValidFilenameD (s : Str) : Bool × Str :=
  match findFirstOf illegalCharacters s with
  | some pos =>
    (false, "Illegal character [".toList ++ (s[pos]?).toList ++ "] in logname prefix: ".toList ++ "[".toList ++ s ++ "]".toList ++ "\n".toList)
  | none => if s = [] then (false, "Empty filename prefix is not allowed".toList ++ "\n".toList) else (true, [])

/-- `prefixSanityFix`, /repo/src/filesinkhelper.ipp:40-52. -/
def prefixSanityFixD (s0 : Str) : Str × Str :=
  let s1 := eraseIf isspace s0
  let s2 := eraseIf (· = '/') s1
  let s3 := eraseIf (· = '\\') s2
  let s4 := eraseIf (· = '.') s3
  let s5 := eraseIf (· = ':') s4
  let v := isValidFilenameD s5
  if v.1 = false then ([], v.2) else (s5, v.2)

/-- `std::string::c_str()` as text: up to the first NUL, [string.accessors]. -/
def cStr : Str → Str
  | [] => []
  | c :: s => if c = Char.ofNat 0 then [] else c :: cStr s

/-- `openLogFile` / `createLogFile`, /repo/src/filesinkhelper.ipp:100-123; the text goes through `c_str()`, line 108. -/
def createLogFileD (fb : Str) (fs : FS) (path : Str) (opens : Bool) : (Option OStream × FS) × Str :=
  if opens then (createLogFile fs path true, [])
  else (createLogFile fs path false,
    cStr ("FILE ERROR:  could not open log file:[".toList ++ path ++ "]".toList ++ "\n\t\t std::ios_base state = ".toList ++ fb) ++ "\n".toList)

/-- `FileSink::FileSink`, /repo/src/filesink.cpp:17-42. -/
def FileSink.newD (fb : Str) (fs : FS) (log_prefix dir id : Str) (every : Nat) (nameTime : Str) (opens1 opens2 : Bool) :
    Except SinkErr (FileSink × FS) × Str :=
  let p := prefixSanityFixD log_prefix
  let v := isValidFilenameD p.1
  if v.1 = false then
    (.error .abortPrefix, p.2 ++ v.2 ++ ("g3log: forced abort due to illegal log prefix [".toList ++ log_prefix ++ "]".toList ++ "\n".toList))
  else
    let file_name := createLogFileName p.1 id nameTime
    let path1 := pathSanityFix dir file_name
    let make := fun (path : Str) (o : OStream) =>
      ({ detailsFn := .default, path := path, prefixBackup := p.1, out := o, header := defaultHeader, firstEntry := true,
         buffer := [], counter := 0, every := every } : FileSink)
    match createLogFileD fb fs path1 opens1 with
    | ((some o, fs'), t) => (.ok (make path1 o, fs'), p.2 ++ v.2 ++ t)
    | ((none, fs'), t) =>
      let path2 := "./".toList ++ file_name
      let t' := p.2 ++ v.2 ++ t ++ "Cannot write log file to location, attempting current directory".toList ++ "\n".toList
      match createLogFileD fb fs' path2 opens2 with
      | ((some o, fs''), t2) => (.ok (make path2 o, fs''), t' ++ t2)
      | ((none, _), t2) => (.error .assertOpen, t' ++ t2)

/-- `FileSink::changeLogFile`, /repo/src/filesink.cpp:72-100: only `createLogFile` (line 79) writes to stderr. -/
def FileSink.changeLogFileD (fb : Str) (s0 : FileSink) (fs : FS) (dir id now nameTime hdrTime : Str) (opens : Bool) :
    (FileSink × FS × Str) × Str :=
  (s0.changeLogFile fs dir id now nameTime hdrTime opens,
   (createLogFileD fb fs (dir ++ createLogFileName s0.prefixBackup id nameTime) opens).2)

/-- `FileSink::~FileSink`, /repo/src/filesink.cpp:44-54. -/
def FileSink.destroyD (s : FileSink) (fs : FS) (time : Str) : FS × Str :=
  let exit_msg := "g3log g3FileSink shutdown at: ".toList ++ time ++ "\n".toList
  (((s.out.put (s.buffer ++ exit_msg)).flush fs).2, exit_msg ++ ("Log file at: [".toList ++ s.path ++ "]\n".toList))

/-- One operation; `fileWrite` and the others write nothing to stderr, /repo/src/filesink.cpp:57-70, 102-116. -/
def sinkStepD (fb : Str) (E : Env) (s : FileSink) (fs : FS) : SinkOp → Except SinkErr (FileSink × FS × Str) × Str
  | .change d i n nt ht o => (.ok (s.changeLogFileD fb fs d i n nt ht o).1, (s.changeLogFileD fb fs d i n nt ht o).2)
  | op => (sinkStep E s fs op, [])

/-- A sequence of operations. -/
def sinkRunD (fb : Str) (E : Env) (s : FileSink) (fs : FS) : List SinkOp → Except SinkErr (FileSink × FS × List Str) × Str
  | [] => (.ok (s, fs, []), [])
  | op :: ops =>
    match sinkStepD fb E s fs op with
    | (.error e, t) => (.error e, t)
    | (.ok (s', fs', r), t) =>
      match sinkRunD fb E s' fs' ops with
      | (.error e, t') => (.error e, t ++ t')
      | (.ok (s'', fs'', rs), t') => (.ok (s'', fs'', r :: rs), t ++ t')

end G3
