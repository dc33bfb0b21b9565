import Verif.Model.Visibility
/- The happens-before relation of the C++ memory model ([intro.races]) for the events of Verif.Model.Visibility, and data races. -/
namespace G3.Spec
open G3

/-- Event `i` is sequenced before event `j`, or synchronises with it: an unlock with every later lock of the mutex ([thread.mutex.requirements]),
the end of a thread with the return of `join` ([thread.thread.member]), making a future ready with the return of `get` ([futures.state]). -/
inductive Edge (tr : List (Nat × MemEv)) (i j : Nat) : Prop
  | po {g : Nat} {e e' : MemEv} : i < j → tr[i]? = some (g, e) → tr[j]? = some (g, e') → Edge tr i j
  | mutex {g h k : Nat} : i < j → tr[i]? = some (g, .unlock k) → tr[j]? = some (h, .lock k) → Edge tr i j
  | thread {g h : Nat} : i < j → tr[i]? = some (g, .ended) → tr[j]? = some (h, .joined g) → Edge tr i j
  | future {g h k x : Nat} : i < j → tr[i]? = some (g, .set k x) → tr[j]? = some (h, .got k x) → Edge tr i j

/-- Happens before. -/
inductive HB (tr : List (Nat × MemEv)) : Nat → Nat → Prop
  | edge {i j : Nat} : Edge tr i j → HB tr i j
  | trans {i j l : Nat} : HB tr i j → HB tr j l → HB tr i l

/-- The event uses a member of object `k`. -/
def Touches (k : Nat) : MemEv → Prop
  | .lock j => j = k
  | .unlock j => j = k
  | .notify j => j = k
  | .access j _ => j = k
  | .destroy j => j = k
  | _ => False

/-- Two events that must not happen at the same time: accesses to the same memory, and the destruction of an object with any use of it. -/
def Conflict (e e' : MemEv) : Prop :=
  (∃ k x, e = .access k x ∧ e' = .access k x) ∨ (∃ k, e = .destroy k ∧ Touches k e') ∨ (∃ k, Touches k e ∧ e' = .destroy k)

/-- No data race: of two conflicting events one happens before the other. -/
def RaceFree (tr : List (Nat × MemEv)) : Prop :=
  ∀ i j g h e e', i < j → tr[i]? = some (g, e) → tr[j]? = some (h, e') → Conflict e e' → HB tr i j

/-- The documented use (docs/g3log_usage.md: "Destruction of the logger should happen AFTER shutdown of other threads that are calling the
logger"): what another thread does with object `k` happens before its destructor is called. -/
def DestroyedLast (tr : List (Nat × MemEv)) (k : Nat) : Prop :=
  ∀ i j g d e, tr[i]? = some (g, e) → Touches k e → tr[j]? = some (d, .dtor k) → g ≠ k → g ≠ d → HB tr i j

/-- The program's number of the thread that object `k` calls `t`. -/
def threadOf (k t : Nat) : Nat := if t = 0 then k else if t = k then 0 else t

/-- A step of object `k` from `c` to `c'` is fully and correctly described by the events `e`. -/
structure Recorded (k : Nat) (c c' : CState) (e : List (Nat × MemEv)) : Prop where
  lock : ∀ g, (g, .lock k) ∈ e ↔ ∃ t, g = threadOf k t ∧ c.qs.owner = none ∧ c'.qs.owner = some t
  unlock : ∀ g, (g, .unlock k) ∈ e ↔ ∃ t, g = threadOf k t ∧ c.qs.owner = some t ∧ c'.qs.owner = none
  notify : ∀ g, (g, .notify k) ∈ e ↔ ∃ t, g = threadOf k t ∧ c.qs.pcs[t]? = some .notify ∧ c'.qs.pcs[t]? = some .idle
  queue : ∀ g, (g, .access k .queue) ∈ e ↔
    ∃ t op, g = threadOf k t ∧ c.qs.pcs[t]? = some (.crit op) ∧ ∀ op', c'.qs.pcs[t]? ≠ some (.crit op')
  content : c'.qs.q ≠ c.qs.q → ∃ g, (g, .access k .queue) ∈ e
  flag : ∀ g, (g, .access k .flag) ∈ e ↔ g = k ∧ ((c.running = some .stop ∧ c'.running = none) ∨ (c.exited = false ∧ c'.exited = true) ∨
    (c.qs.pcs[0]? = some .idle ∧ c'.qs.pcs[0]? = some (.want .waitPop)))
  value : c'.flag ≠ c.flag → (k, .access k .flag) ∈ e
  ended : (k, .ended) ∈ e ↔ c.exited = false ∧ c'.exited = true
  joined : ∀ g, (g, .joined k) ∈ e ↔ ∃ d, g = threadOf k d ∧ c.exited = true ∧ c.dtor = .inside d ∧ c'.dtor = .joined
  destroy : ∀ g, (g, .destroy k) ∈ e ↔ ∃ d, g = threadOf k d ∧ c.dtor = .inside d ∧ c'.dtor = .joined
  dtor : ∀ g, (g, .dtor k) ∈ e ↔ ∃ d, g = threadOf k d ∧ c.dtor = .notStarted ∧ c'.dtor = .inside d
  send : ∀ g i, (g, .send k i) ∈ e ↔ ∃ t, g = threadOf k t ∧ c.qs.pcs[t]? = some .idle ∧ c'.qs.pcs[t]? = some (.want (.push (.user i)))
  set : ∀ g i, (g, .set k i) ∈ e ↔ g = k ∧ c.running = some (.user i) ∧ c'.running = none
  work : ∀ g i, (g, .work k i) ∈ e → g = k ∧ c.running = some (.user i) ∧ c'.running = some (.user i)
  got : ∀ g i, (g, .got k i) ∈ e → i ∈ c.ran

end G3.Spec
