import Verif.Model.Str
/-
The error number `errno` around logging statements: /repo/src/g3log/g3log.hpp:140-226 (macros), /repo/src/logcapture.cpp:43-47 (destructor),
60-73 (constructor), 79-113 (capturef), /repo/src/loglevels.cpp:119-127 (logLevel), /repo/src/g3log.cpp:143-155 (saveMessage),
193-209 (pushMessageToLogger).

`errno` belongs to the thread, so that one thread is modelled. No function of g3log saves or restores it. The calls of the standard library and
the operating system inside g3log may set it: which of them do, and to what, is external and given with each statement (`none`: left alone).
POSIX lets successful calls set it too.

The order of the evaluation is that of C++17: the object expression of a call, with the constructor of LogCapture, comes before the arguments, and the left
operand of `<<` before the right one.

Simplifications: arguments of the printf-like macros are evaluated from left to right; fatal statements do not return (the default exit handler);
initializeLogging and shutDownLogging leave errno alone, as the program may set it after them in a step of its own; an initializeLogging while
logging is initialised, which ends the process (C13, C104), has no step; exceptions are C86.
-/
namespace G3

/-- errno after a call. -/
def errAfter (e : Int) (o : Option Int) : Int := o.getD e

/-- Which macro family. The Boolean is the value of the condition, with what its evaluation does to errno. -/
inductive ErrGuard
  | log                                    -- LOG, LOGF
  | logIf (b : Bool) (own : Option Int)    -- LOG_IF, LOGF_IF
  | check (b : Bool) (own : Option Int)    -- CHECK, CHECKF, CHECK_F
deriving DecidableEq, Repr

/-- One execution of a statement. Operands are given with what their evaluation and their insertion into the stream do to errno. -/
structure ErrStmt where
  guard : ErrGuard
  fatalLevel : Bool                        -- the level of a LOG is fatal
  enabled : Bool                           -- the answer of logLevel
  printf : Bool                            -- capturef, otherwise `<<`
  ops : List (Option Int × Option Int)
  test : Option Int                        -- effect of logLevel, loglevels.cpp:122 (operator[] may allocate)
  ctor : Option Int                        -- of the members of LogCapture, its stream among them
  dump : Option Int                        -- of stackdump, logcapture.cpp:69-72
  format : Option Int                      -- of vsnprintf and the insertion of the text, logcapture.cpp:101-112
  save : Option Int                        -- of saveMessage up to the queue
  report : Option Int                      -- of writing to std::cerr, g3log.cpp:203
deriving DecidableEq, Repr

/-- A failed contract and a LOG of a fatal level. -/
def ErrStmt.isFatal (t : ErrStmt) : Bool :=
  match t.guard with
  | .check _ _ => true
  | _ => t.fatalLevel

/-- The head of the `if` of the macro: errno after it, and whether the else branch is taken. -/
def errHead (e : Int) (t : ErrStmt) : Int × Bool :=
  match t.guard with
  | .check b own => (errAfter e own, !b)
  | .log => (errAfter e t.test, t.enabled)
  | .logIf b own =>
    if t.enabled then (errAfter (errAfter e t.test) own, b) else (errAfter e t.test, false)

/-- The operands of `<<`: what each of them sees, and errno after them. -/
def errStream (e : Int) : List (Option Int × Option Int) → List Int × Int
  | [] => ([], e)
  | o :: os =>
    let r := errStream (errAfter (errAfter e o.1) o.2) os
    (e :: r.1, r.2)

/-- The arguments of capturef: all of them are evaluated before the call. -/
def errArgs (e : Int) : List (Option Int × Option Int) → List Int × Int
  | [] => ([], e)
  | o :: os =>
    let r := errArgs (errAfter e o.1) os
    (e :: r.1, r.2)

/-- The else branch up to the end of the destructor, without the report of pushMessageToLogger. -/
def errBody (e : Int) (t : ErrStmt) : List Int × Int :=
  let e1 := errAfter e t.ctor
  let e2 := if t.isFatal then errAfter e1 t.dump else e1
  let r := if t.printf then
      let q := errArgs e2 t.ops
      (q.1, errAfter q.2 t.format)
    else errStream e2 t.ops
  (r.1, errAfter r.2 t.save)

/-- The thread. -/
structure ErrState where
  errno : Int
  init : Bool            -- g_logger_instance is set
  told : Bool            -- g_set_first_uninitialized_flag is used up
  ended : Bool           -- a fatal statement has been executed
  seen : List Int        -- what operands of statements have seen
deriving DecidableEq, Repr

/-- What the program does. -/
inductive ErrLabel
  | set (v : Int)          -- something other than logging sets errno
  | stmt (t : ErrStmt)
  | init
  | shutdown
deriving DecidableEq, Repr

/-- One step. -/
def errStep (s : ErrState) (l : ErrLabel) : Option ErrState :=
  if s.ended then none
  else match l with
    | .set v => some { s with errno := v }
    | .init => if s.init then none else some { s with init := true }
    | .shutdown => some { s with init := false }
    | .stmt t =>
      let h := errHead s.errno t
      if h.2 then
        let b := errBody h.1 t
        if t.isFatal then some { s with errno := b.2, seen := s.seen ++ b.1, ended := true }
        else if s.init || s.told then some { s with errno := b.2, seen := s.seen ++ b.1 }
        else some { s with errno := errAfter b.2 t.report, seen := s.seen ++ b.1, told := true }
      else some { s with errno := h.1 }

/-- A schedule. -/
def errRun (s : ErrState) : List ErrLabel → Option ErrState
  | [] => some s
  | l :: ls => (errStep s l).bind (errRun · ls)

/-- The program begins. -/
def ErrState.start (e : Int) : ErrState := { errno := e, init := false, told := false, ended := false, seen := [] }

end G3
