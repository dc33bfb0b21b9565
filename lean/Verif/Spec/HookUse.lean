import Verif.Spec.SinkDtorFatal
import Verif.Model.HookUse
/- C112: a program with a hook that uses the library, as the worker sees it. -/
namespace G3.Spec

variable {M : Type}

/-- What is given to the library to be logged. -/
inductive Given (M : Type)
  | entry (m : M)
  | report (m : M)
deriving DecidableEq, Repr

/-- What is given to it in a schedule, by the hook and by others, in order. -/
def given : List (HkLabel M) → List (Given M)
  | [] => []
  | .log m :: r => .entry m :: given r
  | .act (.log m) :: r => .entry m :: given r
  | .finish m :: r => .report m :: given r
  | _ :: r => given r

/-- The entries among it. -/
def entriesIn : List (Given M) → List M
  | [] => []
  | .entry m :: r => m :: entriesIn r
  | .report _ :: r => entriesIn r

/-- The reports among it. -/
def reportsIn : List (Given M) → List M
  | [] => []
  | .entry _ :: r => reportsIn r
  | .report m :: r => m :: reportsIn r

/-- The number of sinks created with a step. -/
def sinksIn : WLabel M → Nat
  | .add => 1
  | _ => 0

/-- A schedule as the worker sees it, if it gets the first `c` of what is given to be logged. `n` sinks have been created so far, `k` synchronous calls have been made, `j` is the last one of the hook. -/
def hkSeen : Nat → Nat → Nat → Nat → List (HkLabel M) → List (WLabel M)
  | _, _, _, _, [] => []
  | c, n, k, j, .base l :: r => l :: hkSeen c (n + sinksIn l) (k + callsIn l) j r
  | 0, n, k, j, .log _ :: r => hkSeen 0 n k j r
  | c + 1, n, k, j, .log m :: r => .save m :: hkSeen c n k j r
  | 0, n, k, j, .act (.log _) :: r => hkSeen 0 n k j r
  | c + 1, n, k, j, .act (.log m) :: r => .save m :: hkSeen c n k j r
  | 0, n, k, j, .finish _ :: r => hkSeen 0 n k j r
  | c + 1, n, k, j, .finish m :: r => .fatal m :: hkSeen c n k j r
  | c, n, k, _, .act (.sync .add) :: r => .add :: hkSeen c (n + 1) (k + 1) k r
  | c, n, k, _, .act (.sync .clear) :: r => .clear :: hkSeen c n (k + 1) k r
  | c, n, k, j, .act (.sync (.remove i)) :: r => if i < n then .remove i :: hkSeen c n (k + 1) k r else hkSeen c n k j r
  | c, n, k, j, .act .shutdown :: r => hkSeen c n k j r
  | c, n, k, j, .act .destroy :: r => .dtor :: hkSeen c n k j r
  | c, n, k, j, .back :: r => .ret j :: hkSeen c n k j r
  | c, n, k, j, .gone :: r => hkSeen c n k j r
  | c, n, k, j, .crash _ _ :: r => hkSeen c n k j r

/-- A step that needs no new input from clients: the hook goes on by itself. -/
def hkOwn (w : WState M) : HkLabel M → Prop
  | .base l => ownStep w (.base l)
  | .log _ => False
  | .crash _ _ => False
  | _ => True

/-- The step is the first fatal event. -/
def isCrash : HkLabel M → Bool
  | .crash _ _ => true
  | _ => false

/-- The step neither stops logging nor raises another fatal event. -/
def keepsLogging : HkLabel M → Bool
  | .base .dtor => false
  | .base (.fatal _) => false
  | .base (.sinkFatal _ _) => false
  | .act .shutdown => false
  | .act .destroy => false
  | _ => true

/-- What the hook does in a schedule. -/
def hookDoes : List (HkLabel M) → List (HkAct M)
  | [] => []
  | .act a :: r => a :: hookDoes r
  | _ :: r => hookDoes r

end G3.Spec
