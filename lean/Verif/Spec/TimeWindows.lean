import Verif.Spec.Time
/- The expansion of a time format where conversions may have qualifiers, piece by piece. -/
namespace G3.Spec
open G3

/-- A piece of a format. -/
inductive Piece
  | plain (c : Char)                      -- an ordinary character
  | conv (q : Option Char) (c : Char)     -- a conversion, perhaps with a qualifier
  | tail (q : Option Char)                -- a percent sign with nothing to convert: only at the end
deriving DecidableEq, Repr

/-- How it is written. -/
def Piece.src : Piece → Str
  | .plain c => [c]
  | .conv none c => ['%', c]
  | .conv (some q) c => ['%', q, c]
  | .tail none => ['%']
  | .tail (some q) => ['%', q]

/-- It is what it seems to be. -/
def Piece.proper (quals : List Char) : Piece → Prop
  | .plain c => c ≠ '%'
  | .conv none c => c ∉ quals
  | .conv (some q) _ => q ∈ quals
  | .tail none => True
  | .tail (some q) => q ∈ quals

/-- Its text. -/
def Piece.out (conv : Option Char → Char → TM → Option Str) (t : TM) : Piece → Option Str
  | .plain c => some [c]
  | .conv q c => conv q c t
  | p => some p.src

/-- The format consists of these pieces. -/
def FormatReads (quals : List Char) (fmt : Str) (ps : List Piece) : Prop :=
  fmt = (ps.map Piece.src).flatten ∧ (∀ p ∈ ps, p.proper quals) ∧ ∀ p ∈ ps.dropLast, ∀ q, p ≠ .tail q

end G3.Spec
