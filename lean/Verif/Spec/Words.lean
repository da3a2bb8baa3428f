import Verif.IO.Text

/-!
# Words of a text
-/

set_option autoImplicit false

namespace Pymech.Spec

/-- White space between the words of a header: tab, line feed, vertical tab, form feed, carriage return, blank. -/
def blank (c : Char) : Bool := [9, 10, 11, 12, 13, 32].contains c.toNat

/-- `l` are the words of the text `s`: runs of other characters, as long as possible, between the characters that `ws` calls white. -/
inductive Words (ws : Char → Bool) : Text → List Text → Prop
  | none {s : Text} : (∀ c ∈ s, ws c = true) → Words ws s []
  | more {s w t : Text} {l : List Text} : (∀ c ∈ s, ws c = true) → w ≠ [] → (∀ c ∈ w, ws c = false) →
      (∀ c, t.head? = some c → ws c = true) → Words ws t l → Words ws (s ++ w ++ t) (w :: l)

/-- `l` are the lines of the text `s`: every line but possibly the last one ends with a line feed, which occurs nowhere else, and no
line is empty. -/
def LinesOf (s : Text) (l : List Text) : Prop :=
  l.flatten = s ∧ (∀ x ∈ l, x ≠ [] ∧ '\n' ∉ x.dropLast) ∧ ∀ x ∈ l.dropLast, x.getLast? = some '\n'

end Pymech.Spec
