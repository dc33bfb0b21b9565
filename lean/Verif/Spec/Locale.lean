import Verif.Model.Locale
/-
Punctuated numbers as the C++ standard describes them ([locale.numpunct.virtuals]), and when which locale is in force.
-/
namespace G3.Spec
open G3

/-- The size of group `i`, counted from the right, from 0: the number at that place in the grouping, or the last one; no number if groups end there. -/
def groupSize (g : List Int) (i : Nat) : Option Nat :=
  match (if i < g.length then g[i]? else g.getLast?) with
  | none => none
  | some x => if 0 < x ∧ x ≠ 127 then some x.toNat else none

/-- The parts between the separators. -/
def joined (sep : Char) : List Str → Str
  | [] => []
  | [a] => a
  | a :: b :: r => a ++ sep :: joined sep (b :: r)

/-- `out` is the number with the digits `ds`, punctuated: its parts give the digits; every part but the leftmost has the size that the grouping says, and the leftmost is not
longer and not empty. -/
def Punctuated (p : NumPunct) (ds out : Str) : Prop :=
  ∃ parts : List Str, out = joined p.sep parts ∧ parts.flatten = ds ∧ parts ≠ [] ∧
    (∀ i r, i + 1 < parts.length → parts.reverse[i]? = some r → groupSize p.grouping i = some r.length) ∧
    ∀ r, parts.head? = some r → r ≠ [] ∧ ∀ g, groupSize p.grouping (parts.length - 1) = some g → r.length ≤ g

/-- The locale in force after `ls`. -/
def inForce (ls : List LocaleLabel) : NumPunct := ls.foldl (fun p l => match l with | .setLocale q => q | _ => p) .classic

/-- The messages logged. -/
def loggedIn (ls : List LocaleLabel) : List LogMessage := ls.filterMap fun | .log m => some m | _ => none

/-- The locale in force at each write. -/
def localesOfWrites (ls : List LocaleLabel) : List NumPunct :=
  (List.range ls.length).filterMap fun i => match ls[i]? with | some LocaleLabel.write => some (inForce (ls.take i)) | _ => none

/-- The program, without the sink. -/
def programPart (ls : List LocaleLabel) : List LocaleLabel := ls.filter fun l => match l with | .write => false | _ => true

/-- The conversions of a time format are all numeric ones that do not depend on a locale (ISO C 7.27.3.5: `%Y %m %d %H %M %S %%`). -/
def numericOnly : Str → Bool
  | [] => true
  | [_] => true
  | c :: d :: r => if c = '%' then "YmdHMS%".toList.contains d && numericOnly r else numericOnly (d :: r)

end G3.Spec
