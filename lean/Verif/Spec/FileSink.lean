import Verif.Model.FileSink
/- Specification of the file sink: which pieces of text end up in which file. -/
namespace G3.Spec
open G3

/-- A piece of text in a log file: a log entry, or something the sink adds itself. -/
inductive Chunk
  | entry (text : Str)
  | extra (text : Str)
deriving DecidableEq, Repr

/-- Its text. -/
def Chunk.text : Chunk → Str
  | .entry t => t
  | .extra t => t

/-- The text of a file made of chunks. -/
def chunkText (cs : List Chunk) : Str := (cs.map Chunk.text).flatten

/-- The log entries among the chunks. -/
def entries (cs : List Chunk) : List Str := cs.filterMap (fun | .entry t => some t | .extra _ => none)

/-- The log entries received, each formatted with the formatter in force at that moment. -/
def received (E : Env) (f : DetailsFn) : List SinkOp → List Str
  | [] => []
  | .write m _ :: ops => (toString E m f).1 :: received E f ops
  | .overrideDetails g :: ops => received E g ops
  | _ :: ops => received E f ops

/-- The file name asked for by a change. -/
def targetName (p dir id nameTime : Str) : Str :=
  dir ++ p ++ ".".toList ++ (if id = [] then [] else id ++ ".".toList) ++ nameTime ++ ".log".toList

/-- The new files of the successful changes, in order. -/
def targets (p : Str) : List SinkOp → List Str
  | [] => []
  | .change d i _ nt _ true :: ops => targetName p d i nt :: targets p ops
  | _ :: ops => targets p ops

/-- State of the specification: formatter, header, whether nothing was written yet, number of entries,
entries held back, files finished, the current file. -/
structure ASink where
  fmt : DetailsFn
  hdr : Str
  fresh : Bool
  count : Nat
  held : List Str
  closed : List (Str × List Chunk)
  path : Str
  cur : List Chunk

/-- Text of the header. -/
def hdrText (time h : Str) : Str := "\t\tg3log created log at: ".toList ++ time ++ "\n".toList ++ h

/-- Effect of one operation; `N` is the flush interval, `p` the prefix. -/
def aStep (E : Env) (N : Nat) (p : Str) (a : ASink) : SinkOp → ASink
  | .write m t =>
    let cur := if a.fresh then a.cur ++ [.extra (hdrText t a.hdr)] else a.cur
    let held := a.held ++ [(toString E m a.fmt).1]
    if N ∣ a.count + 1 then
      { a with fresh := false, count := a.count + 1, held := [], cur := cur ++ held.map .entry }
    else { a with fresh := false, count := a.count + 1, held := held, cur := cur }
  | .change d i now nt ht true =>
    let new := targetName p d i nt
    { a with
      closed := a.closed ++ [(a.path, a.cur ++ [.extra (hdrText ht a.hdr), .extra (now ++ "\n\tChanging log file from : ".toList ++
        a.path ++ "\n\tto new location: ".toList ++ new ++ "\n".toList)])]
      path := new
      cur := [.extra (now ++ "\n\tNew log file. The previous log file was at: ".toList ++ a.path ++ "\n".toList)] }
  | .change d i now nt _ false =>
    { a with cur := a.cur ++ [.extra ("\n".toList ++ now ++
      " Unable to change log file. Illegal filename or busy? Unsuccessful log name was: ".toList ++ targetName p d i nt)] }
  | .overrideDetails f => { a with fmt := f }
  | .overrideHeader h => { a with hdr := h }
  | .fileName => a
  | .spill _ => a

/-- What the caller gets back: the new name or nothing for a change, the current name for `fileName`. -/
def aOut (p : Str) (a : ASink) : SinkOp → Str
  | .change d i _ nt _ true => targetName p d i nt
  | .fileName => a.path
  | _ => []

/-- A sequence of operations. -/
def aRun (E : Env) (N : Nat) (p : Str) (a : ASink) : List SinkOp → ASink
  | [] => a
  | op :: ops => aRun E N p (aStep E N p a op) ops

/-- Results of a sequence of operations. -/
def aOuts (E : Env) (N : Nat) (p : Str) (a : ASink) : List SinkOp → List Str
  | [] => []
  | op :: ops => aOut p a op :: aOuts E N p (aStep E N p a op) ops

/-- All files with their final content, after destruction at `time`. -/
def aFinal (a : ASink) (time : Str) : List (Str × List Chunk) :=
  a.closed ++ [(a.path, a.cur ++ a.held.map .entry ++ [.extra ("g3log g3FileSink shutdown at: ".toList ++ time ++ "\n".toList)])]

/-- State after construction. -/
def aInit (path : Str) : ASink :=
  { fmt := .default
    hdr := "\t\tLOG format: [YYYY/MM/DD hh:mm:ss uuu* LEVEL FILE->FUNCTION:LINE] message\n\n\t\t(uuu*: microseconds fractions of the seconds value)\n\n".toList
    fresh := true, count := 0, held := [], closed := [], path := path, cur := [] }

end G3.Spec
