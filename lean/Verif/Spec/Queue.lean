import Verif.Model.Queue
/- Specification of a linearisable FIFO queue. -/
namespace G3.Spec
open G3
variable {T : Type}

/-- A plain FIFO: an operation with this result is possible and leads to this content. -/
inductive Fifo : List T → QOp T → QRes T → List T → Prop
  | push (q : List T) (x : T) : Fifo q (.push x) .unit (q ++ [x])
  | tryPop (x : T) (q : List T) : Fifo (x :: q) .tryPop (.item x) q
  | tryFail : Fifo [] .tryPop .fail []
  | waitPop (x : T) (q : List T) : Fifo (x :: q) .waitPop (.item x) q
  | empty (q : List T) : Fifo q .empty (.bool (decide (q.length = 0))) q
  | size (q : List T) : Fifo q .size (.nat q.length) q

/-- The operations that took effect, in order, form a legal history of the FIFO from the empty queue to `q`. -/
inductive Legal : List (QEv T) → List T → Prop
  | nil : Legal [] []
  | call (tr q t op) : Legal tr q → Legal (tr ++ [.call t op]) q
  | ret (tr q t r) : Legal tr q → Legal (tr ++ [.ret t r]) q
  | lin (tr q q' t op r) : Legal tr q → Fifo q op r q' → Legal (tr ++ [.lin t op r]) q'

/-- Progress of one thread within an operation. -/
inductive Phase (T : Type)
  | out
  | called (op : QOp T)
  | done (op : QOp T) (r : QRes T)

/-- Each thread calls, the operation takes effect once, then it returns that result; over and over. -/
inductive WellFormed (t : Nat) : List (QEv T) → Phase T → Prop
  | nil : WellFormed t [] .out
  | call (tr op) : WellFormed t tr .out → WellFormed t (tr ++ [.call t op]) (.called op)
  | lin (tr op r) : WellFormed t tr (.called op) → WellFormed t (tr ++ [.lin t op r]) (.done op r)
  | ret (tr op r) : WellFormed t tr (.done op r) → WellFormed t (tr ++ [.ret t r]) .out
  | otherCall (tr p u op) : u ≠ t → WellFormed t tr p → WellFormed t (tr ++ [.call u op]) p
  | otherLin (tr p u op r) : u ≠ t → WellFormed t tr p → WellFormed t (tr ++ [.lin u op r]) p
  | otherRet (tr p u r) : u ≠ t → WellFormed t tr p → WellFormed t (tr ++ [.ret u r]) p

/-- Items put in, in the order in which the pushes took effect. -/
def pushed : List (QEv T) → List T
  | [] => []
  | .lin _ (.push x) _ :: r => x :: pushed r
  | _ :: r => pushed r

/-- Items taken out, in the order in which the pops took effect. -/
def popped : List (QEv T) → List T
  | [] => []
  | .lin _ .tryPop (.item x) :: r => x :: popped r
  | .lin _ .waitPop (.item x) :: r => x :: popped r
  | _ :: r => popped r

/-- Steps of threads that are inside an operation, spurious wake-ups excepted. -/
def internal : QLabel T → Bool
  | .call _ _ => false
  | .spurious _ => false
  | _ => true

end G3.Spec
