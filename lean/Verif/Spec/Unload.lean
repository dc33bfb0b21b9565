import Verif.Model.Unload
/-
Specification for C126: what a message contains, told from the history alone.
-/
namespace G3.Spec
open G3

/-- What is at `a` after a history, which is given backwards. -/
def cellAt (m : DlMem) (a : DlAddr) : List DlLabel → Option DlCell
  | [] => m a
  | .write b c :: r => if b = a then some c else cellAt m a r
  | .free b :: r => if b = a then none else cellAt m a r
  | .unload i :: r => if a.owner = i + 1 then none else cellAt m a r
  | _ :: r => cellAt m a r

/-- The statement `k`, if it is being executed, after a history, which is given backwards. -/
def stmtAt (k : Nat) : List DlLabel → Option DlCapture
  | [] => none
  | .begin j f n g v e :: r => if j = k then some ⟨f, n, g, v, e, []⟩ else stmtAt k r
  | .stream j t :: r => if j = k then (stmtAt k r).map fun c => { c with text := c.text ++ t } else stmtAt k r
  | .close j :: r => if j = k then none else stmtAt k r
  | _ :: r => stmtAt k r

/-- The function that formats, after a history, which is given backwards. -/
def formatterAt (f : DlAddr) : List DlLabel → DlAddr
  | [] => f
  | .override a :: _ => a
  | _ :: r => formatterAt f r

/-- `msg` is what the statement `c` says if memory is `m`. -/
def snapshot (m : DlAddr → Option DlCell) (c : DlCapture) (msg : DlMsg) : Prop :=
  m c.file = some (.str msg.file) ∧ m c.function = some (.str msg.function) ∧ m c.level = some (.lvl msg.levelValue msg.levelText) ∧ m c.expression = some (.str msg.expression) ∧
    msg.line = c.line ∧ msg.text = c.text

/-- The messages of a history (given backwards), in order: one for each statement that has been closed, as memory was at that moment. -/
inductive Closed (m : DlMem) : List DlLabel → List DlMsg → Prop
  | nil : Closed m [] []
  | close {k r l c msg} : Closed m r l → stmtAt k r = some c → snapshot (fun a => cellAt m a r) c msg → Closed m (.close k :: r) (l ++ [msg])
  | other {x r l} : Closed m r l → (∀ k, x ≠ .close k) → Closed m (x :: r) l

/-- The functions that formatted, in order. -/
inductive Formatted (m : DlMem) (f : DlAddr) : List DlLabel → List Nat → Prop
  | nil : Formatted m f [] []
  | take {r l k} : Formatted m f r l → cellAt m (formatterAt f r) r = some (.code k) → Formatted m f (.take :: r) (l ++ [k])
  | other {x r l} : Formatted m f r l → x ≠ .take → Formatted m f (x :: r) l

/-- A step of the program that concerns memory only. -/
def memoryStep : DlLabel → Prop
  | .write _ _ => True
  | .free _ => True
  | .unload _ => True
  | _ => False

/-- What a step needs, after a history given backwards: statements need their own memory while they are executed, and the sink its formatter. -/
def needs (m : DlMem) (f : DlAddr) (r : List DlLabel) : DlLabel → Prop
  | .begin _ _ _ _ v _ => ∃ x t, cellAt m v r = some (.lvl x t)
  | .close k => ∀ c, stmtAt k r = some c → ∃ msg, snapshot (fun a => cellAt m a r) c msg
  | .take => ∃ k, cellAt m (formatterAt f r) r = some (.code k)
  | _ => True

end G3.Spec
