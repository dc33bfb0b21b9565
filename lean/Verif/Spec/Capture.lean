import Verif.Model.Capture
/- Specification of captured message text. -/
namespace G3.Spec
open G3

/-- What the user expects of a printf-style message with a buffer of `size` characters (one is needed for
the terminator): everything, or what fits followed by a mark. -/
def printfText (size : Nat) (t : Str) : Str :=
  if t.length < size then t else t.take (size - 1) ++ "[...truncated...]".toList

/-- The report of a formatting failure. -/
def printfFailure (fmt : Str) : Str :=
  "\n\tERROR LOG MSG NOTIFICATION: Failure to successfully parse the message\"".toList ++ fmt ++ "\"\n".toList

/-- What one insertion contributes to the text (the exact behaviour, including the boundary case). -/
def insText (size : Nat) : Ins → Str
  | .stream t => t
  | .printf f none => printfFailure f
  | .printf _ (some t) =>
      if t.length = size then cstr (t.take (size - 1))
      else if t.length < size then cstr t
      else cstr (t.take (size - 1)) ++ "[...truncated...]".toList

end G3.Spec
