import Verif.Model.FileSink
/-
The file sink on a file system that other programs use as well: they rename, link, remove, replace and extend files while the sink has one open.

A file is a number with a content, a directory entry a name for a file; an open stream stays with its file whatever becomes of the names (POSIX). The
sink is that of Model/FileSink; what it does to its stream is listed by `traceOf`, which `C123_trace` (Props/ExternalFiles) checks against it.
/repo/src/filesinkhelper.ipp:100-112 opens without `std::ios_base::app`, so the stream writes at its own offset.

Simplifications: as in Model/FileSink; one directory tree without directories of its own; opening succeeds or not as given.
-/
namespace G3

/-- What a file sink does to its stream. -/
inductive StOp
  | put (t : Str)        -- stream << t
  | spill (n : Nat)      -- the stream hands n characters to the system by itself
  | flush                -- std::flush
  | opens (path : Str)   -- createLogFile, a second stream
  | swap                 -- _outptr = std::move(log_stream), which closes the old one
deriving DecidableEq, Repr

/-- The operations of Model/FileSink on the stream of a sink: /repo/src/filesink.cpp:57-70 (write), :72-100 (change). -/
def traceOf (E : Env) (s : FileSink) : SinkOp → List StOp
  | .write m ht =>
    (if s.firstEntry then [.put (headerText ht s.header)] else []) ++
      if (s.counter + 1) % s.every = 0 then [.put (s.buffer ++ (toString E m s.detailsFn).1), .flush] else []
  | .change dir id now nameTime hdrTime ok =>
    let prospect := dir ++ createLogFileName s.prefixBackup id nameTime
    if ok then
      [.opens prospect, .put (headerText hdrTime s.header),
       .put (now ++ ("\n\tChanging log file from : ".toList ++ s.path ++ "\n\tto new location: ".toList ++ prospect ++ "\n".toList)), .swap,
       .put (now ++ ("\n\tNew log file. The previous log file was at: ".toList ++ s.path ++ "\n".toList))]
    else [.put ("\n".toList ++ now ++ " Unable to change log file. Illegal filename or busy? Unsuccessful log name was: ".toList ++ prospect)]
  | .spill n => [.spill n]
  | _ => []

/-- The same for the destructor, /repo/src/filesink.cpp:44-54. -/
def traceEnd (s : FileSink) (time : Str) : List StOp :=
  [.put (s.buffer ++ ("g3log g3FileSink shutdown at: ".toList ++ time ++ "\n".toList)), .flush]

/-- One such operation on the files of Model/FileSink: the stream, the second one, the files. -/
def pathStep (x : OStream × Option OStream × FS) : StOp → OStream × Option OStream × FS
  | .put t => (x.1.put t, x.2)
  | .spill n => ((x.1.spill x.2.2 n).1, x.2.1, (x.1.spill x.2.2 n).2)
  | .flush => ((x.1.flush x.2.2).1, x.2.1, (x.1.flush x.2.2).2)
  | .opens p => (x.1, (createLogFile x.2.2 p true).1, (createLogFile x.2.2 p true).2)
  | .swap => (x.2.1.getD x.1, none, (x.1.flush x.2.2).2)

/-- Files with numbers, and names for them. -/
structure IFiles where
  dir : Str → Option Nat
  data : Nat → Str
  fresh : Nat            -- files from here on do not exist

/-- Change of the content of a file. -/
def IFiles.setData (f : IFiles) (i : Nat) (c : Str) : IFiles := { f with data := fun j => if j = i then c else f.data j }

/-- Change of a name. -/
def IFiles.setDir (f : IFiles) (p : Str) (i : Option Nat) : IFiles := { f with dir := fun q => if q = p then i else f.dir q }

/-- `open` with O_CREAT and O_TRUNC: the number of the file. -/
def IFiles.openTrunc (f : IFiles) (p : Str) : Nat × IFiles :=
  match f.dir p with
  | some i => (i, f.setData i [])
  | none => (f.fresh, { (f.setData f.fresh []).setDir p (some f.fresh) with fresh := f.fresh + 1 })

/-- An open stream. -/
structure IStream where
  ino : Nat
  off : Nat
  pend : Str
deriving DecidableEq, Repr

/-- The first `n` buffered characters go to the file, which may have any name or none. -/
def IStream.spill (o : IStream) (f : IFiles) (n : Nat) : IStream × IFiles :=
  ({ o with off := o.off + (o.pend.take n).length, pend := o.pend.drop n }, f.setData o.ino (writeAt (f.data o.ino) o.off (o.pend.take n)))

/-- The stream of the sink, a second one while the file is changed, and the files. -/
structure InoState where
  cur : IStream
  next : Option IStream
  files : IFiles

/-- One operation on the stream. -/
def inoStep (x : InoState) : StOp → InoState
  | .put t => { x with cur := { x.cur with pend := x.cur.pend ++ t } }
  | .spill n => { x with cur := (x.cur.spill x.files n).1, files := (x.cur.spill x.files n).2 }
  | .flush => { x with cur := (x.cur.spill x.files x.cur.pend.length).1, files := (x.cur.spill x.files x.cur.pend.length).2 }
  | .opens p => { x with next := some ⟨(x.files.openTrunc p).1, 0, []⟩, files := (x.files.openTrunc p).2 }
  | .swap => { cur := x.next.getD x.cur, next := none, files := (x.cur.spill x.files x.cur.pend.length).2 }

/-- What other programs do. -/
inductive ExtOp
  | rename (a b : Str)           -- mv a b
  | remove (a : Str)             -- rm a
  | link (a b : Str)             -- ln a b
  | write (a t : Str)            -- open with truncation, and write: `: > a`, truncate, cp
  | append (a t : Str)           -- open for appending, and write: `>> a`
deriving DecidableEq, Repr

/-- One such operation. -/
def extStep (f : IFiles) : ExtOp → IFiles
  | .rename a b => match f.dir a with
    | none => f
    | some i => if f.dir b = some i then f else (f.setDir b (some i)).setDir a none
  | .remove a => f.setDir a none
  | .link a b => match f.dir a, f.dir b with
    | some i, none => f.setDir b (some i)
    | _, _ => f
  | .write a t => (f.openTrunc a).2.setData (f.openTrunc a).1 t
  | .append a t => match f.dir a with
    | some i => f.setData i (f.data i ++ t)
    | none => (f.openTrunc a).2.setData (f.openTrunc a).1 t

/-- What happens: the sink is used, or somebody else is active. -/
inductive RotEv
  | use (o : SinkOp)
  | ext (x : ExtOp)

/-- The sink and its files. The sink itself does not look at the files. -/
structure RotState where
  sink : FileSink
  io : InoState

/-- One step; `none`: the program ends (`% 0`). -/
def rotStep (E : Env) (x : RotState) : RotEv → Option RotState
  | .ext e => some { x with io := { x.io with files := extStep x.io.files e } }
  | .use o => match sinkStep E x.sink (fun _ => none) o with
    | .error _ => none
    | .ok (s', _, _) => some { sink := s', io := (traceOf E x.sink o).foldl inoStep x.io }

/-- A history. -/
def rotRun (E : Env) (x : RotState) : List RotEv → Option RotState
  | [] => some x
  | e :: r => (rotStep E x e).bind fun y => rotRun E y r

/-- The files after the destructor of the sink. -/
def rotEnd (x : RotState) (time : Str) : IFiles := ((traceEnd x.sink time).foldl inoStep x.io).files

/-- A sink just made, /repo/src/filesink.cpp:17-42: its file has been opened. -/
def rotStart (s : FileSink) (f : IFiles) : RotState := ⟨s, ⟨⟨(f.openTrunc s.path).1, 0, []⟩, none, (f.openTrunc s.path).2⟩⟩

end G3
