import Verif.Model.FileSink
/-
Several file sinks at once, as built by `addDefaultLogger` (/repo/src/logworker.cpp:121-123) or by
`addSink(std::make_unique<FileSink>(...))`: they share nothing but the file system. Each sink has its own
thread (Model/Worker), so their operations interleave freely; one operation is one step, as in
Model/FileSink. Sinks of other processes that write to the same file system are further slots.
-/
namespace G3

/-- The sinks that exist, by number, the results of the calls made on each, and the files. -/
structure SinksState where
  sink : Nat → Option FileSink
  outs : Nat → List Str
  fs : FS

/-- What can happen: a sink is built, something is done with it, it is destroyed. -/
inductive SinksOp
  | build (log_prefix dir id : Str) (every : Nat) (nameTime : Str) (opens1 opens2 : Bool)
  | use (o : SinkOp)
  | destroy (time : Str)

/-- Change of one slot. -/
def SinksState.put (st : SinksState) (k : Nat) (s : Option FileSink) : Nat → Option FileSink :=
  fun j => if j = k then s else st.sink j

/-- One step of sink `k`; `none` if it cannot happen or ends the program.
`FileSink::FileSink` /repo/src/filesink.cpp:17-42, `~FileSink` 44-54, everything else 57-116. -/
def sinksStep (E : Env) (st : SinksState) (k : Nat) : SinksOp → Option SinksState
  | .build lp dir id every nt o1 o2 =>
    match st.sink k with
    | some _ => none
    | none =>
      match FileSink.new st.fs lp dir id every nt o1 o2 with
      | .error _ => none
      | .ok (s, fs') => some { st with sink := st.put k (some s), fs := fs' }
  | .use o =>
    match st.sink k with
    | none => none
    | some s =>
      match sinkStep E s st.fs o with
      | .error _ => none
      | .ok (s', fs', r) =>
        some { sink := st.put k (some s'), outs := fun j => if j = k then st.outs j ++ [r] else st.outs j, fs := fs' }
  | .destroy time =>
    match st.sink k with
    | none => none
    | some s => some { st with sink := st.put k none, fs := s.destroy st.fs time }

/-- A history of all sinks. -/
def sinksRun (E : Env) (st : SinksState) : List (Nat × SinksOp) → Option SinksState
  | [] => some st
  | (k, o) :: l =>
    match sinksStep E st k o with
    | none => none
    | some st' => sinksRun E st' l

/-- No sink yet. -/
def sinksInit (fs : FS) : SinksState := { sink := fun _ => none, outs := fun _ => [], fs := fs }

end G3
