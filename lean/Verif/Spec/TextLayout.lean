import Verif.Spec.Serial

/-! # The layout of text files, independent of how the code reads them -/

namespace Nurbs.Spec

/-- only white space -/
def Blank (l : List UInt8) : Prop := ∀ c ∈ l, Space c

/-- The same lines up to blank lines and white space at the ends of lines (tabs, `\r` of other systems). -/
inductive SameLines : List (List UInt8) → List (List UInt8) → Prop
  | nil : SameLines [] []
  | left {b l l'} : Blank b → SameLines l l' → SameLines (b :: l) l'
  | right {b l l'} : Blank b → SameLines l l' → SameLines l (b :: l')
  | line {a b a' b' x l l'} : Blank a → Blank b → Blank a' → Blank b' → SameLines l l' → SameLines ((a ++ x ++ b) :: l) ((a' ++ x ++ b') :: l')

/-- A sequence of lines as bytes. -/
def linesText (ls : List (List UInt8)) : List UInt8 := ls.flatMap fun l => l ++ [10]

/-- A line `*name:value`; the name ends at the first colon. -/
def KeyLine (x name value : List UInt8) : Prop := ∃ a, Blank a ∧ x = a ++ 42 :: (name ++ 58 :: value) ∧ (58 : UInt8) ∉ name

/-- not of the form `*name:value` -/
def NoKey (x : List UInt8) : Prop := ∀ name value, ¬ KeyLine x name value

/-- Number of lines that are not blank. -/
def contentLines (ls : List (List UInt8)) : ℕ := ls.countP fun l => l.any fun c => !(c == 9 || c == 10 || c == 11 || c == 12 || c == 13 || c == 32)

end Nurbs.Spec
