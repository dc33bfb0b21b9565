import Verif.Spec.FileSink
/- Specification of the file sink when names of files are used again: every file holds what was written since it was opened last. -/
namespace G3.Spec
open G3

/-- The files that were written one after the other, on top of what was there before: of several under one name the last one counts. -/
def latest (fs : FS) : List (Str × List Chunk) → FS
  | [] => fs
  | x :: xs => latest (fun q => if q = x.1 then some (chunkText x.2) else fs q) xs

/-- Everything in the first file system is still in the second: files have only grown. -/
def Grown (fs fs' : FS) : Prop := ∀ q c, fs q = some c → ∃ c', fs' q = some c' ∧ c <+: c'

end G3.Spec
