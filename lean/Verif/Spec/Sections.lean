import Verif.Spec.TextLayout
import Verif.Spec.Serial

/-! # Sections of text files -/

namespace Nurbs.Spec

/-- `ls` is a section called `name`: a line `*name:value` and lines without keys. -/
def IsSection (name : List UInt8) (ls : List (List UInt8)) : Prop :=
  ∃ x n v mid, ls = x :: mid ∧ KeyLine x n v ∧ IsTrimmed n name ∧ name ≠ [] ∧ ∀ y ∈ mid, NoKey y

/-- The same sections in another order; sections of the same name stay in their order. -/
def Rearranged (ss ss' : List (List UInt8 × List (List UInt8))) : Prop :=
  ∀ k, ss.filter (fun s => s.1 == k) = ss'.filter (fun s => s.1 == k)

end Nurbs.Spec
