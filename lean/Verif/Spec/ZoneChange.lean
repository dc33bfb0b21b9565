import Verif.Model.ZoneChange
/-
Specification for C130: what a schedule says by itself about the zone of a time stamp.
-/
namespace G3.Spec
open G3

/-- The value of TZ after a schedule that began with z. -/
def tzAfter (z : Str) : List ZoneLabel → Str
  | [] => z
  | .setTZ y :: ls => tzAfter y ls
  | _ :: ls => tzAfter z ls

/-- The times of the statements of a schedule, in order. -/
def stmtTimes (ls : List ZoneLabel) : List Int := ls.filterMap fun | .log t => some t | _ => none

/-- How many messages sink k has written. -/
def writtenBy (k : Nat) (ls : List ZoneLabel) : Nat := ls.count (.write k)

/-- All stamps written. -/
def writtenAll (ls : List ZoneLabel) : Nat := ls.countP fun | .write _ => true | _ => false

/-- After these steps the C library knows the value of TZ. -/
def learns : ZoneLabel → Prop
  | .tzset => True
  | .write _ => True
  | _ => False

/-- The zone in which a stamp is made after the schedule p: TZ at the last time the C library had a look, or TZ now if it has had none yet
or has one always. -/
def ZoneInForce (look : Bool) (z : Str) (p : List ZoneLabel) (y : Str) : Prop :=
  (look = true ∧ y = tzAfter z p) ∨
  (look = false ∧ (∀ l ∈ p, ¬ learns l) ∧ y = tzAfter z p) ∨
  (look = false ∧ ∃ a l b, p = a ++ l :: b ∧ learns l ∧ (∀ x ∈ b, ¬ learns x) ∧ y = tzAfter z a)

/-- The stamp of time t in zone y for sink k. -/
def stampIn (E : ZoneLib) (k : Nat) (y : Str) (t : Int) : Option (Except TimeErr PutTime) :=
  localtimeFormatted E.other (E.rules y) E.ndebug t (E.format k)

/-- The program sets TZ in this step. -/
def setsTZ : ZoneLabel → Prop
  | .setTZ _ => True
  | _ => False

/-- Whenever TZ has been set, the C library has had a look since. -/
def Settled (look : Bool) (p : List ZoneLabel) : Prop :=
  look = true ∨ ∀ a y b, p = a ++ .setTZ y :: b → ∃ l ∈ b, learns l

/-- The statement with number i is the step after p. -/
def StmtAfter (ls p : List ZoneLabel) (i : Nat) (t : Int) : Prop := (∃ r, ls = p ++ .log t :: r) ∧ (stmtTimes p).length = i

/-- What one expects of stamps: each is made in the zone that TZ named at its statement. -/
def StampsOfTheirTime (E : ZoneLib) (z : Str) (ls : List ZoneLabel) (lines : List ZoneLine) : Prop :=
  ∀ x ∈ lines, ∃ p t, StmtAfter ls p x.stmt t ∧ stampIn E x.sink (tzAfter z p) t = some (.ok x.stamp)

end G3.Spec
