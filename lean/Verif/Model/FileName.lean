import Verif.Model.Str
/-
Model of the name and path helpers in /repo/src/filesinkhelper.ipp.
-/
namespace G3

/-- `::isspace` in the C locale. (For bytes outside ASCII `::isspace` on a negative `char` is formally
undefined; here they are simply not spaces, which is what glibc does.) -/
def isspace (c : Char) : Bool :=
  c = ' ' || c = '\t' || c = '\n' || c = Char.ofNat 11 || c = Char.ofNat 12 || c = '\r'

/-- /repo/src/filesinkhelper.ipp:27 -/
def illegalCharacters : Str := "/,|<>:#$%{}[]\'\"^!?+* ".toList

/-- `isValidFilename`, /repo/src/filesinkhelper.ipp:26-38 (the message to stderr: Model/FileDiag). -/
def isValidFilename (s : Str) : Bool :=
  match findFirstOf illegalCharacters s with
  | some _ => false
  | none => if s = [] then false else true

/-- `s.erase(std::remove_if(begin, end, p), end)`: drop every character satisfying `p`. -/
def eraseIf (p : Char → Bool) : Str → Str
  | [] => []
  | c :: s => if p c then eraseIf p s else c :: eraseIf p s

/-- `prefixSanityFix`, /repo/src/filesinkhelper.ipp:40-52. -/
def prefixSanityFix (s0 : Str) : Str :=
  let s1 := eraseIf isspace s0
  let s2 := eraseIf (· = '/') s1
  let s3 := eraseIf (· = '\\') s2
  let s4 := eraseIf (· = '.') s3
  let s5 := eraseIf (· = ':') s4
  if isValidFilename s5 = false then [] else s5

/-- The prefix test at the start of `FileSink::FileSink`, /repo/src/filesink.cpp:26-30: `none` is the call
of `abort()`. -/
def acceptPrefix (log_prefix : Str) : Option Str :=
  let p := prefixSanityFix log_prefix
  if isValidFilename p = false then none else some p

/-- The loop `while (contains_end(path)) path.erase(path.size() - 1)`, /repo/src/filesinkhelper.ipp:60-69. -/
def stripEnd (s : Str) : Str :=
  match _h : s.getLast? with
  | none => s
  | some e => if e = '/' ∨ e = ' ' then stripEnd s.dropLast else s
termination_by s.length
decreasing_by
  have : s ≠ [] := by rintro rfl; simp at _h
  have := List.length_pos_iff.mpr this
  simp; omega

/-- `pathSanityFix`, /repo/src/filesinkhelper.ipp:54-77. -/
def pathSanityFix (path fileName : Str) : Str :=
  let p := path.map (fun c => if c = '\\' then '/' else c)
  let p := stripEnd p
  let p := if p ≠ [] then p ++ ['/'] else p
  p ++ fileName

/-- `createLogFileName`, /repo/src/filesinkhelper.ipp:88-98; `time` is the formatted current time (format
`%Y%m%d-%H%M%S`, see `Verif.Props.Time`). -/
def createLogFileName (verified_prefix logger_id time : Str) : Str :=
  verified_prefix ++ ".".toList ++ (if logger_id ≠ [] then logger_id ++ ".".toList else []) ++ time ++ ".log".toList

/-- `header`, /repo/src/filesinkhelper.ipp:79-86; `time` is the formatted current time. -/
def headerText (time headerFormat : Str) : Str :=
  "\t\tg3log created log at: ".toList ++ time ++ "\n".toList ++ headerFormat

end G3
