import Verif.Model.Signals
/-
Specification for C43 and C44: what a program's calls concerning signals, in any order and number, have done
to one signal. Everything here only looks at the calls; histories are written newest call first.
-/
namespace G3.Spec
open G3

/-- The calls. `init` is the installation of the handlers, made by the first `initializeLogging`
(g3log.cpp:56-58) and by whoever calls `installCrashHandler` directly. -/
inductive SetUp
  | init
  | choose (signals : List Int)   -- overrideSetupSignals
  | giveBack (n : Int)            -- restoreSignalHandler
  | toDefault                     -- restoreFatalHandlingToDefault
deriving DecidableEq, Repr

/-- The effect of a call in the model. -/
def SetUp.perform (e : SigEnv) (s : SigState) : SetUp → SigState
  | .init => installSignalHandler e s
  | .choose l => overrideSetupSignals e s l
  | .giveBack n => restoreSignalHandler e s n
  | .toDefault => restoreFatalHandlingToDefault e s

/-- The state after a history (newest first). -/
def afterSetUp (e : SigEnv) (d0 : Int → Disp) : List SetUp → SigState
  | [] => SigState.start d0
  | c :: older => c.perform e (afterSetUp e d0 older)

/-- The argument is a map: its keys are distinct. -/
def SetUp.proper : SetUp → Prop
  | .choose l => l.Nodup
  | _ => True

/-- The set of signals chosen last. -/
def chosen : List SetUp → List Int
  | [] => [4, 6, 8, 11, 15]
  | .choose l :: _ => l
  | .toDefault :: _ => [4, 6, 8, 11, 15]
  | _ :: older => chosen older

/-- The last call concerning signal `n` asked g3log to watch it. -/
def watching (n : Int) : List SetUp → Bool
  | [] => false
  | .init :: older => decide (n ∈ chosen older)
  | .choose l :: _ => decide (n ∈ l)
  | .toDefault :: _ => decide (n ∈ ([4, 6, 8, 11, 15] : List Int))
  | .giveBack m :: older => if m = n then false else watching n older

/-- At some time the handlers were installed by `init` although `n` was watched already. -/
def spoilt (n : Int) : List SetUp → Bool
  | [] => false
  | .init :: older => watching n older || spoilt n older
  | _ :: older => spoilt n older

end G3.Spec
