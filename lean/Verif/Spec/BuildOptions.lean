import Verif.Model.BuildOptions
/-
Specification for C120: what each option of the build is for, and which names belong to the library.
-/
namespace G3.Spec
open G3

/-- What the options mean, docs/building.md:37-110. -/
def chosenBuild (tc : Toolchain) (o : BuildOptions) : Features :=
  { dynamicLevels := o.dynamicLevels
    dynamicSize := o.dynamicSize
    fullFilename := o.fullFilename
    fatalSignals := o.fatalSignals
    vectored := o.vectored || !tc.windows
    debugBreak := o.debugBreak && tc.windows
    function := match tc with
      | .msvc => if o.funcsig then .funcsig else .function
      | .gnu => if o.pretty then .pretty else .function
      | .mingw => if o.pretty then .pretty else .function
      | .other => .function
    debugLevel := some (if o.dbug then "DBUG".toList else "DEBUG".toList) }

/-- The macros that belong to the library. -/
def ownNames : List Str :=
  ["G3_DYNAMIC_LOGGING".toList, "CHANGE_G3LOG_DEBUG_TO_DBUG".toList, "G3LOG_DEBUG".toList, "WINDOWS_FUNCSIG".toList, "PRETTY_FUNCTION".toList,
   "G3_DYNAMIC_MAX_MESSAGE_SIZE".toList, "G3_LOG_FULL_FILENAME".toList, "DISABLE_FATAL_SIGNALHANDLING".toList,
   "DISABLE_VECTORED_EXCEPTIONHANDLING".toList, "DEBUG_BREAK_AT_FATAL_SIGNAL".toList]

/-- The program defines none of them. -/
def keepsOff (mine : List (Str × Str)) : Prop := ∀ p ∈ mine, p.1 ∉ ownNames

/-- Two choices that do not differ in anything that reaches the code of this platform. -/
def sameChoice (tc : Toolchain) (a b : BuildOptions) : Prop :=
  a.dynamicLevels = b.dynamicLevels ∧ a.dbug = b.dbug ∧ a.funcsig = b.funcsig ∧ a.pretty = b.pretty ∧ a.dynamicSize = b.dynamicSize ∧
  a.fullFilename = b.fullFilename ∧ a.fatalSignals = b.fatalSignals ∧
  (tc = .msvc ∨ tc = .mingw → a.vectored = b.vectored ∧ a.debugBreak = b.debugBreak)

end G3.Spec
