import Verif.Model.Stamps
/- What a schedule of logging statements says by itself about times and order. -/
namespace G3.Spec
open G3

/-- What the clock shows after a schedule that began at c. -/
def clockAfter (c : Int) : List StLabel → Int
  | [] => c
  | .pass d :: ls => clockAfter (c + d) ls
  | .adjust x :: ls => clockAfter x ls
  | _ :: ls => clockAfter c ls

/-- Nobody sets the clock. -/
def Steady (ls : List StLabel) : Prop := ∀ c, .adjust c ∉ ls

/-- Step k of the schedule is l. -/
def At (ls : List StLabel) (k : Nat) (l : StLabel) : Prop := ls[k]? = some l

/-- Before step h, the last of initializeLogging and shutDownLogging is the former. -/
def ActiveAt (ls : List StLabel) (h : Nat) : Prop := ∃ k, k < h ∧ At ls k .init ∧ ∀ j, k < j → j < h → ¬ At ls j .shut

/-- Step h is the first of its kind. -/
def FirstAt (ls : List StLabel) (h : Nat) (p : StLabel → Prop) : Prop := (∃ l, At ls h l ∧ p l) ∧ ∀ k l, k < h → At ls k l → ¬ p l

/-- Some thread's `pushMessageToLogger`. -/
def IsPush (l : StLabel) : Prop := ∃ t, l = .push t

/-- The thread that makes a step. -/
def stThread : StLabel → Option Nat
  | .begin t => some t
  | .make t _ => some t
  | .push t => some t
  | .pushFatal t => some t
  | _ => none

/-- The statement of the message, in the terms of the schedule: where it began, where it ended (there the clock was read), on which thread. -/
def FromStatement (c : Int) (ls : List StLabel) (e : StEntry) : Prop :=
  At ls e.began (.begin e.thread) ∧ At ls e.made (.make e.thread e.fatal) ∧ e.began < e.made ∧ e.stamp = clockAfter c (ls.take e.made)

/-- The hand-over of a message in step h: by the thread of the statement while there is a logger, or, for the first message of all if there
was none, by the first initializeLogging. -/
def HandedIn (ls : List StLabel) (e : StEntry) (h : Nat) : Prop :=
  e.made < h ∧
  ((e.fatal = false ∧ At ls h (.push e.thread) ∧ ActiveAt ls h) ∨
   (e.fatal = true ∧ At ls h (.pushFatal e.thread) ∧ ActiveAt ls h) ∨
   (e.fatal = false ∧ FirstAt ls h (· = .init) ∧ ∃ k, k < h ∧ e.made < k ∧ FirstAt ls k IsPush ∧ At ls k (.push e.thread)))

/-- The steps of thread t among steps i, ..., j-1. -/
def stepsOf (t : Nat) (ls : List StLabel) (i j : Nat) : List StLabel := ((ls.take j).drop i).filter fun l => stThread l == some t

/-- Whole statements of thread t, one after the other, with whole statements in their operands. -/
inductive Complete (t : Nat) : List StLabel → Prop
  | nil : Complete t []
  | snoc {a b : List StLabel} : Complete t a → Complete t b → Complete t (a ++ .begin t :: b ++ [.make t false, .push t])

/-- Before step k, a hook is set: it was set after the last initializeLogging and after the last fatal event. -/
def HookAt (ls : List StLabel) (k : Nat) : Prop :=
  ∃ j, j < k ∧ At ls j .setHook ∧ ∀ i, j < i → i < k → ¬ At ls i .init ∧ ∀ t, ¬ At ls i (.make t true)

/-- The statement of message e, done in step k: during its operands its thread runs whole statements only, and none between making the message
and handing it over - except, for a fatal event, whole statements of the hook if one is set. -/
def Whole (ls : List StLabel) (e : StEntry) (k : Nat) : Prop :=
  e.made < k ∧ Complete e.thread (stepsOf e.thread ls (e.began + 1) e.made) ∧
  (e.fatal = false → At ls k (.push e.thread) ∧ stepsOf e.thread ls (e.made + 1) k = []) ∧
  (e.fatal = true → At ls k (.pushFatal e.thread) ∧ Complete e.thread (stepsOf e.thread ls (e.made + 1) k) ∧
    (HookAt ls e.made ∨ stepsOf e.thread ls (e.made + 1) k = []))

end G3.Spec
