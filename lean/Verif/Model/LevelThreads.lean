import Verif.Model.Levels
/-
The level registry used by several threads at the same time: /repo/src/loglevels.cpp and /repo/src/g3log/loglevels.hpp, G3_DYNAMIC_LOGGING
build. Verif.Model.Levels has every call in one piece; here a call is a program of single memory accesses.

Memory: the search tree of the `std::map`; in every node an atomic status (atomicbool.hpp:13-41) and a `LEVELS` (an int and a std::string, not atomic). There is no
mutex, so what a call does is ordered only within its own thread.
-/
namespace G3

/-- The calls of Verif.Model.Levels, and `getAll` (which is also the first part of `to_string()`, loglevels.cpp:98-104). -/
inductive RegCall
  | op (o : LevelOp)
  | getAll

/-- What a call returns. -/
inductive RegOut
  | out (o : LevelOut)
  | all (r : Registry)
deriving DecidableEq

/-- A program of accesses to the registry. -/
inductive RCode
  | ret (o : RegOut)
  | find (k : Int) (next : Bool → RCode)              -- `find(k) != end()`: reads the tree
  | keys (next : List Int → RCode)                    -- start of a range-for: reads the tree. The nodes it will visit; exact as long as nobody changes the tree
  | advance (next : RCode)                            -- `++it`: reads the tree
  | index (k : Int) (next : RCode)                    -- `operator[]`: reads the tree, and inserts a default entry if there is none
  | replace (next : RCode)                            -- assignment of the default map: destroys or reuses every node
  | load (k : Int) (next : Bool → RCode)              -- atomic load of the status in node k
  | store (k : Int) (b : Bool) (next : RCode)         -- atomic store
  | readLevel (k : Int) (next : Option Level → RCode) -- copy of the LEVELS in node k
  | writeLevel (k : Int) (l : Level) (next : RCode)   -- assignment to it

/-- The status in node k. -/
def regStatus (k : Int) (r : Registry) : Bool :=
  match r.find? k with
  | some v => v.status
  | none => false

/-- Store to the status in node k. -/
def regStore (k : Int) (b : Bool) (r : Registry) : Registry := r.map fun p => if p.1 = k then (p.1, { p.2 with status := b }) else p

/-- Assignment to the LEVELS in node k. -/
def regLevel (k : Int) (l : Level) (r : Registry) : Registry := r.map fun p => if p.1 = k then (p.1, { p.2 with level := l }) else p

/-- `operator[]` of the map: make sure that there is a node k. -/
def regIndex (k : Int) (r : Registry) : Registry :=
  match r.find? k with
  | some _ => r
  | none => r.insert k LoggingLevel.default

/-- One access: the memory and the rest of the program after it. -/
def RCode.exec (r : Registry) : RCode → Option (Registry × RCode)
  | .ret _ => none
  | .find k c => some (r, c (r.find? k).isSome)
  | .keys c => some (r, c (r.map Prod.fst))
  | .advance c => some (r, c)
  | .index k c => some (regIndex k r, c)
  | .replace c => some (defaultLevels, c)
  | .load k c => some (r, c (regStatus k r))
  | .store k b c => some (regStore k b r, c)
  | .readLevel k c => some (r, c ((r.find? k).map LoggingLevel.level))
  | .writeLevel k l c => some (regLevel k l r, c)

/-- What a program that makes no further access returns. -/
def RCode.result : RCode → List RegOut
  | .ret o => [o]
  | _ => []

/-- `map[l.value] = {l, enabled}`, loglevels.cpp:36 and :66, with the assignment operator of loglevels.hpp:122-126. -/
def assignCode (l : Level) (enabled : Bool) (next : RCode) : RCode :=
  .index l.value (.store l.value enabled (.writeLevel l.value l.copy next))

/-- `set`, loglevels.cpp:63-68. -/
def setCode (l : Level) (enabled : Bool) (next : RCode) : RCode :=
  .find l.value fun there => if there then assignCode l enabled next else next

/-- The loop of `setHighest`, loglevels.cpp:53-59. A node that is gone is passed over (only after a `reset()` at the same time). -/
def setHighestCode (t : Int) (done : RCode) : List Int → RCode
  | [] => done
  | k :: ks => .readLevel k fun v =>
    match v with
    | none => .advance (setHighestCode t done ks)
    | some l => if k < t then setCode l false (.advance (setHighestCode t done ks)) else setCode l true (.advance (setHighestCode t done ks))

/-- The loop of `disableAll` and `enableAll`, loglevels.cpp:78-88. -/
def storeAllCode (b : Bool) (done : RCode) : List Int → RCode
  | [] => done
  | k :: ks => .store k b (.advance (storeAllCode b done ks))

/-- Copy of the map, loglevels.cpp:103, with the copy constructor of loglevels.hpp:111-113. -/
def copyAllCode : List Int → Registry → RCode
  | [], acc => .ret (.all acc)
  | k :: ks, acc => .load k fun b => .readLevel k fun v =>
    match v with
    | none => .advance (copyAllCode ks acc)
    | some l => .advance (copyAllCode ks (acc ++ [(k, ⟨b, l.copy⟩)]))

/-- The program of each call, loglevels.cpp:34-127. -/
def callCode : RegCall → RCode
  | .op (.add l b) => assignCode l b (.ret (.out .unit))
  | .op (.add1 l) => assignCode l true (.ret (.out .unit))
  | .op .reset => .replace (.ret (.out .unit))
  | .op (.setHighest l) => .find l.value fun there =>
      if there then .keys fun ks => setHighestCode l.value (.ret (.out .unit)) ks else .ret (.out .unit)
  | .op (.set l b) => setCode l b (.ret (.out .unit))
  | .op (.disable l) => setCode l false (.ret (.out .unit))
  | .op (.enable l) => setCode l true (.ret (.out .unit))
  | .op .disableAll => .keys fun ks => storeAllCode false (.ret (.out .unit)) ks
  | .op .enableAll => .keys fun ks => storeAllCode true (.ret (.out .unit)) ks
  | .op (.getStatus l) => .find l.value fun there =>
      if there then .load l.value fun b => .ret (.out (.status (if b then .enabled else .disabled))) else .ret (.out (.status .absent))
  | .op (.logLevel l) => .index l.value (.load l.value fun b => .ret (.out (.bool b)))
  | .getAll => .keys fun ks => copyAllCode ks []

/-- Threads, each with a program and further calls to make, and what they were returned so far. -/
structure LtState where
  reg : Registry
  code : Nat → Option RCode      -- none: between two calls
  todo : Nat → List RegCall
  outs : Nat → List RegOut

/-- Update of one thread. -/
def atThread {β : Type} (f : Nat → β) (t : Nat) (v : β) : Nat → β := fun k => if k = t then v else f k

/-- Every thread about to make the calls `calls t`. -/
def LtState.start (r : Registry) (calls : Nat → List RegCall) : LtState :=
  { reg := r, code := fun _ => none, todo := calls, outs := fun _ => [] }

/-- One step of thread t: a call begins, one access, or the call returns. -/
def ltStep (s : LtState) (t : Nat) : Option LtState :=
  match s.code t with
  | none =>
    match s.todo t with
    | [] => none
    | c :: cs => some { s with code := atThread s.code t (some (callCode c)), todo := atThread s.todo t cs }
  | some c =>
    match c.exec s.reg with
    | some (r, c') => some { s with reg := r, code := atThread s.code t (some c') }
    | none => some { s with code := atThread s.code t none, outs := atThread s.outs t (s.outs t ++ c.result) }

/-- A schedule. -/
def ltRun (s : LtState) : List Nat → Option LtState
  | [] => some s
  | t :: ts => (ltStep s t).bind (ltRun · ts)

/-- Places in memory. -/
inductive RLoc
  | tree
  | status (k : Int)
  | level (k : Int)
  | everything
deriving DecidableEq

/-- The next access of a program: where, is it a write, is it atomic. -/
def RCode.access (r : Registry) : RCode → Option (RLoc × Bool × Bool)
  | .ret _ => none
  | .find _ _ => some (.tree, false, false)
  | .keys _ => some (.tree, false, false)
  | .advance _ => some (.tree, false, false)
  | .index k _ => some (.tree, (r.find? k).isNone, false)
  | .replace _ => some (.everything, true, false)
  | .load k _ => some (.status k, false, true)
  | .store k _ _ => some (.status k, true, true)
  | .readLevel k _ => some (.level k, false, false)
  | .writeLevel k _ _ => some (.level k, true, false)

/-- Two accesses that must not be made by two threads at once: to the same place, at least one a write, not both atomic ([intro.races]). -/
def RConflict (a b : RLoc × Bool × Bool) : Prop :=
  (a.1 = b.1 ∨ a.1 = .everything ∨ b.1 = .everything) ∧ (a.2.1 = true ∨ b.2.1 = true) ∧ ¬ (a.2.2 = true ∧ b.2.2 = true)

/-- A data race: two threads are about to make conflicting accesses. -/
def RRace (s : LtState) : Prop :=
  ∃ t u c d a b, t ≠ u ∧ s.code t = some c ∧ s.code u = some d ∧ c.access s.reg = some a ∧ d.access s.reg = some b ∧ RConflict a b

end G3
