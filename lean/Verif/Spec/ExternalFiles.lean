import Verif.Model.ExternalFiles
import Verif.Spec.FileSink
/-
Specification for C123: which file other programs write to, and what is in a file that somebody has changed under the sink.
-/
namespace G3.Spec
open G3

/-- The content of a file of `c`, into which a stream that has written `k` characters so far writes `t`: characters before place `k` stay, those from there on are
replaced as far as `t` goes, missing ones before place `k` become NUL. -/
def mixed (c : Str) (k : Nat) (t : Str) : Str :=
  if t = [] then c else c.take k ++ List.replicate (k - c.length) (Char.ofNat 0) ++ t ++ c.drop (k + t.length)

/-- This operation changes the content of file `i`. -/
def changesFile (f : IFiles) (i : Nat) : ExtOp → Prop
  | .write a _ => f.dir a = some i
  | .append a _ => f.dir a = some i
  | _ => False

/-- The sink is not told to use another file. -/
def staysPut : RotEv → Prop
  | .use (.change _ _ _ _ _ _) => False
  | _ => True

/-- In the course of a history nobody else changes the content of file `i`. -/
def leftAlone (E : Env) (i : Nat) : RotState → List RotEv → Prop
  | _, [] => True
  | x, .ext e :: r => ¬ changesFile x.io.files i e ∧ ∀ y, rotStep E x (.ext e) = some y → leftAlone E i y r
  | x, e :: r => ∀ y, rotStep E x e = some y → leftAlone E i y r

/-- What the sink is asked to do. -/
def usesOf : List RotEv → List SinkOp
  | [] => []
  | .use o :: r => o :: usesOf r
  | .ext _ :: r => usesOf r

/-- This operation is about names only. -/
def onlyNames : ExtOp → Prop
  | .write _ _ => False
  | .append _ _ => False
  | _ => True

/-- What the names are after what others did. -/
def renamed (d : Str → Option Nat) : ExtOp → Str → Option Nat
  | .rename a b, q => if d a = none ∨ d a = d b then d q else if q = a then none else if q = b then d a else d q
  | .remove a, q => if q = a then none else d q
  | .link a b, q => if q = b ∧ d b = none then d a else d q
  | _, q => d q

/-- What others do. -/
def othersOf : List RotEv → List ExtOp
  | [] => []
  | .use _ :: r => othersOf r
  | .ext e :: r => e :: othersOf r

/-- What a reader finds under a name. -/
def look (f : IFiles) (q : Str) : Option Str := (f.dir q).map f.data

/-- Names only refer to files that exist. -/
def sound (f : IFiles) : Prop := ∀ q j, f.dir q = some j → j < f.fresh

/-- All that a new sink writes to its file: the header before the first entry, the entries, the last line. -/
def completeLog (E : Env) (hdr : Str) (ops : List SinkOp) (time : Str) : Str :=
  hdr ++ (received E .default ops).flatten ++ ("g3log g3FileSink shutdown at: ".toList ++ time ++ "\n".toList)

/-- What the sink still has to write when it is asked for these things and then destroyed: text in the stream, entries held back, the header if there was none yet, the
entries, the last line. -/
def outstanding (E : Env) (x : RotState) (ops : List SinkOp) (hdr : Str) (time : Str) : Str :=
  x.io.cur.pend ++ x.sink.buffer ++ (if x.sink.firstEntry then hdr else []) ++ (received E x.sink.detailsFn ops).flatten ++
    ("g3log g3FileSink shutdown at: ".toList ++ time ++ "\n".toList)

end G3.Spec
