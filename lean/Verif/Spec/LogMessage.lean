import Verif.Model.LogMessage
/- Specification of formatted entries. -/
namespace G3.Spec
open G3

/-- The kinds of entries a reader of the log distinguishes. -/
inductive Kind | ordinary | logFatal | contract | signal | exception | customFatal
deriving DecidableEq

/-- Kind of an entry by its level value. -/
def kindOf (v : Int) : Kind :=
  if v < 1000 then .ordinary
  else if v = 1000 then .logFatal
  else if v = 2000 then .contract
  else if v = 2001 then .signal
  else if v = 2002 then .exception
  else .customFatal

/-- The documented text of an entry: `details` is the text of the chosen details formatter. -/
def entryText (k : Kind) (details stamp message expression : Str) : Str :=
  match k with
  | .ordinary => details ++ message ++ "\n".toList
  | .logFatal => details ++ "\n\t*******\t EXIT trigger caused by LOG(FATAL) entry: \n\t\"".toList ++ message ++ "\"".toList
  | .contract => details ++ "\n\t*******\t EXIT trigger caused by broken Contract: CHECK(".toList ++ expression ++
      ")\n\t\"".toList ++ message ++ "\"".toList
  | .signal => stamp ++ "\n\n***** FATAL SIGNAL RECEIVED ******* \n".toList ++ message ++ "\n".toList
  | .exception => stamp ++ "\n\n***** FATAL EXCEPTION RECEIVED ******* \n".toList ++ message ++ "\n".toList
  | .customFatal => details ++ "\t*******UNKNOWN or Custom made Log Message Type\n\t".toList ++ message ++ "\n".toList

/-- Split at the first occurrence of a character; the character itself is dropped. -/
def cut (c : Char) (s : Str) : Str × Str := (s.takeWhile (fun x => decide (x ≠ c)), (s.dropWhile (fun x => decide (x ≠ c))).drop 1)

/-- Split at the last occurrence of a character. -/
def cutLast (c : Char) (s : Str) : Str × Str := ((cut c s.reverse).2.reverse, (cut c s.reverse).1.reverse)

/-- The fields of a line. -/
structure LineFields where
  stamp : Str
  level : Str
  file : Str
  function : Str
  line : Str
  message : Str
deriving DecidableEq, Repr

/-- A reader for `stamp TAB level [file->function:line] TAB message NEWLINE`. -/
def parseLine (s : Str) : LineFields :=
  let a := cut '\t' s
  let b := cut '\t' a.2
  let c := cut '[' b.1
  let d := cut '>' c.2
  let e := cutLast ':' d.2
  { stamp := a.1, level := c.1.dropLast, file := d.1.dropLast, function := e.1, line := e.2.dropLast, message := b.2.dropLast }

/-- The base name of a path as g3log understands it: nothing in it separates directories. -/
def isSep (c : Char) : Bool := c = '(' || c = '/' || c = '\\'

end G3.Spec
