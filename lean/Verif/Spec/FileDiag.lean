import Verif.Spec.FileSink
/- Specification of the diagnostics of the file sink on stderr. -/
namespace G3.Spec
open G3

/-- A line of the file sink on stderr. -/
inductive DiagLine
  | illegal (c : Char) (name : Str)   -- the cleaned prefix `name` has the illegal character `c`
  | empty                             -- there is nothing left of the prefix
  | forced (given : Str)              -- the process is aborted because of the prefix as given
  | cannotOpen (path : Str)           -- this file cannot be opened
  | trying                            -- the file will be put into the current directory
  | shutdown (time : Str)             -- the sink is destroyed
  | logAt (path : Str)                -- the log is in this file
deriving DecidableEq, Repr

/-- Its text; `fb` is the state of a stream that could not be opened. A path ends at the first NUL. -/
def DiagLine.text (fb : Str) : DiagLine → Str
  | .illegal c n => "Illegal character [".toList ++ [c] ++ "] in logname prefix: [".toList ++ n ++ "]\n".toList
  | .empty => "Empty filename prefix is not allowed\n".toList
  | .forced g => "g3log: forced abort due to illegal log prefix [".toList ++ g ++ "]\n".toList
  | .cannotOpen p =>
    ("FILE ERROR:  could not open log file:[".toList ++ p ++ "]\n\t\t std::ios_base state = ".toList ++ fb).takeWhile (fun c => decide (c ≠ Char.ofNat 0)) ++
      "\n".toList
  | .trying => "Cannot write log file to location, attempting current directory\n".toList
  | .shutdown t => "g3log g3FileSink shutdown at: ".toList ++ t ++ "\n".toList
  | .logAt p => "Log file at: [".toList ++ p ++ "]\n".toList

/-- Lines one after the other. -/
def diagText (fb : Str) (ls : List DiagLine) : Str := (ls.map (DiagLine.text fb)).flatten

/-- White space and `/ \ . :` are dropped from a prefix. -/
def cleanedPrefix (given : Str) : Str :=
  given.filter fun c => !decide (c ∈ [' ', '\t', '\n', Char.ofNat 11, Char.ofNat 12, '\r', '/', '\\', '.', ':'])

/-- Characters that may not be in a prefix. -/
def forbidden (c : Char) : Bool := decide (c ∈ "/,|<>:#$%{}[]'\"^!?+* ".toList)

/-- A file in a directory as the user means it: backslashes are slashes, slashes and blanks at the end do not count. -/
def placeIn (dir file : Str) : Str :=
  let d := ((dir.map fun c => if c = '\\' then '/' else c).reverse.dropWhile fun c => decide (c = '/' ∨ c = ' ')).reverse
  if d = [] then file else d ++ '/' :: file

/-- The name of the file, without its directory. -/
def plainName (given id nameTime : Str) : Str := targetName (cleanedPrefix given) [] id nameTime

/-- The lines that the construction of a sink writes; `o1` and `o2` tell whether the file can be opened in the requested and in the
current directory. -/
def constructLines (given dir id nameTime : Str) (o1 o2 : Bool) : List DiagLine :=
  match (cleanedPrefix given).find? forbidden with
  | some c => [.illegal c (cleanedPrefix given), .empty, .forced given]
  | none =>
    if cleanedPrefix given = [] then [.empty, .empty, .forced given]
    else match o1, o2 with
      | true, _ => []
      | false, true => [.cannotOpen (placeIn dir (plainName given id nameTime)), .trying]
      | false, false => [.cannotOpen (placeIn dir (plainName given id nameTime)), .trying,
          .cannotOpen ("./".toList ++ plainName given id nameTime)]

/-- The lines of later operations: one for each change that fails. -/
def changeLines (p : Str) : List SinkOp → List DiagLine
  | [] => []
  | .change d i _ nt _ false :: ops => .cannotOpen (targetName p d i nt) :: changeLines p ops
  | _ :: ops => changeLines p ops

/-- The file in use after some operations: the target of the last change that succeeded. -/
def fileInUse (path p : Str) (ops : List SinkOp) : Str := (targets p ops).getLast?.getD path

/-- What a line written during construction says is true. -/
def TrueAtConstruction (given dir id nameTime : Str) (o1 o2 : Bool) : DiagLine → Prop
  | .illegal c n => n = cleanedPrefix given ∧ c ∈ n ∧ forbidden c = true
  | .empty => cleanedPrefix given = []
  | .forced g => g = given ∧ (cleanedPrefix given = [] ∨ ∃ c ∈ cleanedPrefix given, forbidden c = true)
  | .cannotOpen p => (p = placeIn dir (plainName given id nameTime) ∧ o1 = false) ∨ (p = "./".toList ++ plainName given id nameTime ∧ o2 = false)
  | .trying => o1 = false
  | .shutdown _ => False
  | .logAt _ => False

end G3.Spec
