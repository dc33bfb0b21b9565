import Verif.Model.LogMessage
/-
How one message reaches the callbacks of several sinks, object by object: `LogWorkerImpl::bgSave` and `bgFatal`
(/repo/src/logworker.cpp:23-36, 56-59), `Sink::send` and the string adapter (/repo/src/g3log/sink.hpp:45-68), with
`MoveOnCopy<LogMessage>` (/repo/src/g3log/moveoncopy.hpp:21-26) in between.

Objects of type LogMessage are numbered in the order of their construction. The worker thread and the threads of the sinks take turns in
any order. A schedule may hand a queued message over any number of times (lambda captures, copies of `std::function`, parameters
by value); each hand-over is one construction by `MoveOnCopy`.
-/
namespace G3

/-- What a callback is given: a message object, or the text of `toString()`. -/
inductive Given
  | message (m : LogMessage)
  | text (t : Str)
deriving DecidableEq, Repr

/-- The state. Object 0 is `*uniqueMsg`. -/
structure DelState where
  objs : List LogMessage
  queued : List (Nat × Nat)     -- for each message on its way: the sink and the object that carries it
  seen : List (Nat × Given)     -- what the callbacks were given

/-- `bgSave` begins with the message. -/
def DelState.start (m : LogMessage) : DelState := { objs := [m], queued := [], seen := [] }

/-- Steps. -/
inductive DLabel
  | send (i : Nat)                                     -- worker thread: one turn of the loop, logworker.cpp:26-29
  | pass (k : Nat)                                     -- the k-th message on its way is handed over once more
  | callback (k : Nat) (f : LogMessage → LogMessage)   -- its sink's callback runs and does `f` to the message

/-- A new object is constructed by moving from object `o`; `left` says what the move leaves behind there. -/
def moveFrom (left : LogMessage → LogMessage) (objs : List LogMessage) (o : Nat) : Option (List LogMessage) :=
  match objs[o]? with
  | none => none
  | some m => some (objs.set o (left m) ++ [m.moved])

/-- One step. `textual i`: sink i was added with a callback that takes a string (sink.hpp:50-58). -/
def dStep (E : Env) (left : LogMessage → LogMessage) (textual : Nat → Bool) (s : DelState) : DLabel → Option DelState
  | .send i =>
    match s.objs[(0 : Nat)]? with
    | none => none
    | some m =>
      -- `LogMessage msg(*uniqueMsg)`, then `LogMessageMover(std::move(msg))`
      let objs1 := s.objs ++ [m.copy]
      (moveFrom left objs1 s.objs.length).map fun objs2 => { s with objs := objs2, queued := s.queued ++ [(i, objs1.length)] }
  | .pass k =>
    match s.queued[k]? with
    | none => none
    | some (i, o) =>
      (moveFrom left s.objs o).map fun objs1 => { s with objs := objs1, queued := s.queued.set k (i, s.objs.length) }
  | .callback k f =>
    match s.queued[k]? with
    | none => none
    | some (i, o) =>
      -- the parameter of the callback is constructed from the captured mover
      (moveFrom left s.objs o).bind fun objs1 =>
        match objs1[s.objs.length]? with
        | none => none
        | some m =>
          some { objs := objs1.set s.objs.length (f m)
                 queued := s.queued.eraseIdx k
                 seen := s.seen ++ [(i, if textual i then .text (toStringDefault E m).1 else .message m)] }

/-- A schedule. -/
def dRun (E : Env) (left : LogMessage → LogMessage) (textual : Nat → Bool) (s : DelState) : List DLabel → Option DelState
  | [] => some s
  | l :: ls => (dStep E left textual s l).bind (dRun E left textual · ls)

end G3
