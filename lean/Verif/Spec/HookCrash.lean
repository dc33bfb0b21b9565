import Verif.Model.HookCrash
import Verif.Spec.Front
/-
Specification for C121: what becomes of a fatal event whose hook crashes, read off the steps of the hook.
-/
namespace G3.Spec
open G3

/-- How a hook ends. -/
inductive HookFate
  | returns                                          -- it comes to its end
  | reports (m : LogMessage) (trace : Str) (sig : Int)  -- one of its steps is itself reported as a fatal event
  | kills (sig : Int)                                -- the process ends at once by this signal
  | hangs                                            -- the thread sleeps for ever
  | throws                                           -- it throws
deriving DecidableEq

/-- A signal that reaches a thread: nobody handles it; it is the first one that g3log's handler sees; or it is a further one. -/
def signalFate (handled : List Int) (fresh : Bool) (sig : Int) (m : LogMessage) (t : Str) : HookFate :=
  if sig ∉ handled then .kills sig else if fresh then .reports m t sig else .hangs

/-- The fate of a hook: its first step that does not come back. `mask`: the signals blocked in the thread; `fresh`: no fatal signal has been handled so far. -/
def hookFate (handled mask : List Int) (fresh : Bool) : List HAct → HookFate
  | [] => .returns
  | .log _ :: r => hookFate handled mask fresh r
  | .setHook _ _ :: r => hookFate handled mask fresh r
  | .stmt m t n :: _ => .reports m t n
  | .crash sig m t :: _ => if sig ∈ mask then .kills sig else signalFate handled fresh sig m t
  | .raise sig m t :: r => if sig ∈ mask then hookFate handled mask fresh r else signalFate handled fresh sig m t
  | .abort m t :: _ => signalFate handled fresh SIGABRT m t
  | .throws :: _ => .throws

/-- What a hook has logged when it ends. -/
def hookLogs (mask : List Int) : List HAct → List LogMessage
  | .log m :: r => m :: hookLogs mask r
  | .setHook _ _ :: r => hookLogs mask r
  | .raise sig _ _ :: r => if sig ∈ mask then hookLogs mask r else []
  | _ => []

/-- Hooks that do not set hooks. -/
def flat : List HAct → Prop
  | [] => True
  | .setHook _ _ :: _ => False
  | _ :: r => flat r

/-- A fatal event as it begins: a statement, or a signal that g3log handles, in its handler. -/
inductive Outer
  | stmt (m : LogMessage) (trace : Str) (sig : Int)
  | signal (sig : Int) (m : LogMessage) (trace : Str)

def Outer.mask : Outer → List Int
  | .stmt _ _ _ => []
  | .signal sig _ _ => [sig]

def Outer.fresh : Outer → Bool
  | .stmt _ _ _ => true
  | .signal _ _ _ => false

def Outer.msg : Outer → LogMessage
  | .stmt m _ _ => m
  | .signal _ m _ => m

def Outer.trace : Outer → Str
  | .stmt _ t _ => t
  | .signal _ _ t => t

def Outer.sig : Outer → Int
  | .stmt _ _ n => n
  | .signal n _ _ => n

/-- As a step of a thread; a signal may come from an instruction (`sync`) or be raised. -/
def Outer.act (sync : Bool) : Outer → HAct
  | .stmt m t n => .stmt m t n
  | .signal n m t => if sync then .crash n m t else .raise n m t

/-- Texts and signals of the fatal messages handed to a worker. -/
def handedTexts (es : List Eff) : List (Nat × Str × Int) := es.filterMap fun
  | .fatal w m => some (w, m.base.message, m.signal)
  | _ => none

/-- How the event ends for the thread, given the fate of the hook. -/
def outerEnd (signal : Bool) : HookFate → HCStat
  | .returns => .blocked
  | .reports _ _ _ => .blocked
  | .kills n => .killed n
  | .hangs => .sleeps
  | .throws => if signal then .undefined else .thrown

/-- What is handed to worker `w`: nothing, or one message. -/
def outerReport (w : Nat) (o : Outer) : HookFate → List (Nat × Str × Int)
  | .returns => [(w, fatalEntry o.msg o.trace o.trace false, o.sig)]
  | .reports m t n => [(w, fatalEntry m t o.trace true, n)]
  | _ => []

/-- A program in normal use: worker `w` is active, the exit handler is the library's, no fatal event so far and no signal blocked. -/
def calmState (w : Nat) (s : HCState) : Prop :=
  s.front.inst = some w ∧ s.front.handler = .default ∧ s.front.counter = 0 ∧ s.front.firstTrace = none ∧ s.entered = 0 ∧ s.mask = []

end G3.Spec
