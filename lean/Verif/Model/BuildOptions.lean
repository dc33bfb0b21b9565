import Verif.Model.Str
/-
Model of the options of the build: /repo/Options.cmake, /repo/GenerateMacroDefinitionsFile.cmake, and the preprocessor conditions in
/repo/src that look at the macros of the generated header.

Simplifications: a CMake list is a list of strings (none of the elements has a semicolon); of the preprocessor only what the generated header
needs is modelled: block comments that begin a line and end one, `#define` at the beginning of a line; all other lines define nothing.
-/
namespace G3

/-- The compiler, as far as CMake and the headers tell them apart: `MSVC` and `_MSC_VER`, `MINGW`, `__GNUC__`. -/
inductive Toolchain
  | gnu      -- gcc or clang, not on Windows
  | mingw
  | msvc
  | other
deriving DecidableEq, Repr

/-- `IF (MSVC OR MINGW)`, Options.cmake:145. -/
def Toolchain.windows : Toolchain → Bool
  | .mingw => true
  | .msvc => true
  | _ => false

/-- `defined(_MSC_VER)`, g3log.hpp:31. -/
def Toolchain.mscVer : Toolchain → Bool
  | .msvc => true
  | _ => false

/-- `defined(__GNUC__)`, g3log.hpp:33. -/
def Toolchain.gnuc : Toolchain → Bool
  | .gnu => true
  | .mingw => true
  | _ => false

/-- The options of Options.cmake:32-172 that reach the code. -/
structure BuildOptions where
  ios : Bool                 -- G3_IOS_LIB
  dynamicLevels : Bool       -- USE_DYNAMIC_LOGGING_LEVELS
  dbug : Bool                -- CHANGE_G3LOG_DEBUG_TO_DBUG
  funcsig : Bool             -- WINDOWS_FUNCSIG
  pretty : Bool              -- PRETTY_FUNCTION
  dynamicSize : Bool         -- USE_G3_DYNAMIC_MAX_MESSAGE_SIZE
  fullFilename : Bool        -- G3_LOG_FULL_FILENAME
  fatalSignals : Bool        -- ENABLE_FATAL_SIGNALHANDLING
  vectored : Bool            -- ENABLE_VECTORED_EXCEPTIONHANDLING
  debugBreak : Bool          -- DEBUG_BREAK_AT_FATAL_SIGNAL
deriving DecidableEq, Repr

/-- The defaults, Options.cmake:32-167. -/
def BuildOptions.default : BuildOptions :=
  { ios := false, dynamicLevels := false, dbug := false, funcsig := false, pretty := false, dynamicSize := false, fullFilename := false,
    fatalSignals := true, vectored := true, debugBreak := false }

/-- `G3_DEFINITIONS` after Options.cmake:29-172. -/
def g3Definitions (tc : Toolchain) (o : BuildOptions) : List Str :=
  (if o.dynamicLevels then ["G3_DYNAMIC_LOGGING".toList] else []) ++
  (if o.dbug then ["CHANGE_G3LOG_DEBUG_TO_DBUG".toList, "G3LOG_DEBUG DBUG".toList] else ["G3LOG_DEBUG DEBUG".toList]) ++
  (if o.funcsig then ["WINDOWS_FUNCSIG".toList] else []) ++
  (if o.pretty then ["PRETTY_FUNCTION".toList] else []) ++
  (if o.dynamicSize then ["G3_DYNAMIC_MAX_MESSAGE_SIZE".toList] else []) ++
  (if o.fullFilename then ["G3_LOG_FULL_FILENAME".toList] else []) ++
  (if o.fatalSignals then [] else ["DISABLE_FATAL_SIGNALHANDLING".toList]) ++
  (if tc.windows then
    (if o.vectored then [] else ["DISABLE_VECTORED_EXCEPTIONHANDLING".toList]) ++
    (if o.debugBreak then ["DEBUG_BREAK_AT_FATAL_SIGNAL".toList] else [])
   else [])

/-- `HEADER`, GenerateMacroDefinitionsFile.cmake:11-17. -/
def licenseHeader : Str :=
  "/** ==========================================================================\n".toList ++
  "* 2015 by KjellKod.cc. This is PUBLIC DOMAIN to use at your own risk and comes\n".toList ++
  "* with no warranties. This code is yours to share, use and modify with no\n".toList ++
  "* strings attached and no restrictions or obligations.\n".toList ++
  "* \n".toList ++
  "* For more information see g3log/LICENSE or refer refer to http://unlicense.org\n".toList ++
  "* ============================================================================*/".toList

/-- The part of `generated_content` above the definitions, GenerateMacroDefinitionsFile.cmake:33-36. -/
def generatedTop : Str :=
  "// AUTO GENERATED MACRO DEFINITIONS FOR G3LOG\n\n".toList ++ "\n".toList ++ licenseHeader ++ "\n".toList ++
  "\n#pragma once\n\n".toList ++ "\n// CMake induced definitions below. See g3log/Options.cmake for details.\n\n".toList

/-- `generated_content`, GenerateMacroDefinitionsFile.cmake:33-40. -/
def generatedContent (defs : List Str) : Str :=
  defs.foldl (fun c d => c ++ "\n#define ".toList ++ d ++ "\n".toList) generatedTop

/-- `file(WRITE name ${text})`, GenerateMacroDefinitionsFile.cmake:50: the text is an unquoted argument, which CMake takes apart at semicolons;
the parts are written one after the other. -/
def fileWrite (text : Str) : Str := text.filter (· ≠ ';')

/-- One run of CMake, GenerateMacroDefinitionsFile.cmake:25-52 (and CMakeLists.txt:105-110 for iOS): the generated header before (`none`: there is
none) and after, and whether it has been written. -/
def configureHeader (tc : Toolchain) (o : BuildOptions) (old : Option Str) : Option Str × Bool :=
  if o.ios then (old, false)
  else
    let current := match old with | some t => t | none => []
    let content := generatedContent (g3Definitions tc o)
    if current = content then (old, false) else (some (fileWrite content), true)

/-- The lines of a text. -/
def textLines : Str → List Str
  | [] => [[]]
  | c :: cs => if c = '\n' then [] :: textLines cs else match textLines cs with
    | l :: ls => (c :: l) :: ls
    | [] => [[c]]

/-- What a line of the header defines; the first argument and the first result tell whether a block comment is open. -/
def headerLine (comment : Bool) (l : Str) : Bool × Option (Str × Str) :=
  if comment || "/*".toList.isPrefixOf l then (!("*/".toList.isSuffixOf l), none)
  else if "#define ".toList.isPrefixOf l then
    let rest := l.drop 8
    (false, some (rest.takeWhile (· ≠ ' '), (rest.dropWhile (· ≠ ' ')).drop 1))
  else (false, none)

/-- The macros defined by the lines of a header. -/
def headerLines : Bool → List Str → List (Str × Str)
  | _, [] => []
  | c, l :: ls => (headerLine c l).2.toList ++ headerLines (headerLine c l).1 ls

/-- The macros a program has after including the generated header: its own (`mine`) and those of the header. -/
def macrosAfter (mine : List (Str × Str)) (header : Str) : List (Str × Str) := mine ++ headerLines false (textLines header)

/-- `defined(name)`. -/
def isDefined (ms : List (Str × Str)) (name : Str) : Bool := ms.any fun p => p.1 == name

/-- What the function part of an entry is: `G3LOG_PRETTY_FUNCTION`. -/
inductive FunctionText
  | funcsig
  | pretty
  | function
deriving DecidableEq, Repr

/-- g3log.hpp:31-37. -/
def functionText (tc : Toolchain) (ms : List (Str × Str)) : FunctionText :=
  if tc.mscVer && isDefined ms "WINDOWS_FUNCSIG".toList then .funcsig
  else if tc.gnuc && isDefined ms "PRETTY_FUNCTION".toList then .pretty
  else .function

/-- What the code looks at. -/
structure Features where
  dynamicLevels : Bool
  dynamicSize : Bool
  fullFilename : Bool
  fatalSignals : Bool
  vectored : Bool
  debugBreak : Bool
  function : FunctionText
  debugLevel : Option Str     -- what the name of the debug level is in the source text
deriving DecidableEq, Repr

/-- The conditions in loglevels.hpp:145, loglevels.cpp:20,31,120 (levels), g3log.hpp:88, logcapture.cpp:13,29,81 (size), logmessage.cpp:126,
crashhandler_unix.cpp:90,271,293, crashhandler_windows.cpp:30,34,57,91,184,187,219,240, g3log.hpp:31-37, and the macro used in loglevels.hpp:96. -/
def featuresOf (tc : Toolchain) (ms : List (Str × Str)) : Features :=
  { dynamicLevels := isDefined ms "G3_DYNAMIC_LOGGING".toList
    dynamicSize := isDefined ms "G3_DYNAMIC_MAX_MESSAGE_SIZE".toList
    fullFilename := isDefined ms "G3_LOG_FULL_FILENAME".toList
    fatalSignals := !(isDefined ms "DISABLE_FATAL_SIGNALHANDLING".toList)
    vectored := !(isDefined ms "DISABLE_VECTORED_EXCEPTIONHANDLING".toList)
    debugBreak := isDefined ms "DEBUG_BREAK_AT_FATAL_SIGNAL".toList
    function := functionText tc ms
    debugLevel := (ms.find? fun p => p.1 == "G3LOG_DEBUG".toList).map (·.2) }

/-- `#error` in loglevels.hpp:15-23. -/
def levelClash (ms : List (Str × Str)) : Bool :=
  if isDefined ms "CHANGE_G3LOG_DEBUG_TO_DBUG".toList then isDefined ms "DBUG".toList else isDefined ms "DEBUG".toList

end G3
