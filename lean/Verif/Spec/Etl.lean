import Verif.Base.Bytes

/-!
# What sorting collected entries means

Independent of the model: entries are pairs of byte strings, ordered by key and then by value in the lexicographic order
of lists.
-/

namespace Silkworm.Spec

/-- `a` may come before `b`. -/
def Precedes (a b : Bytes × Bytes) : Prop := a.1 < b.1 ∨ a.1 = b.1 ∧ a.2 ≤ b.2

/-- `l` is `es` put into order. -/
def IsSorting (es l : List (Bytes × Bytes)) : Prop := l.Perm es ∧ l.Pairwise Precedes

/-- An entry that a 32-bit length can describe. -/
def EntryFits (e : Bytes × Bytes) : Prop := e.1.length < 2 ^ 32 ∧ e.2.length < 2 ^ 32

instance (e : Bytes × Bytes) : Decidable (EntryFits e) := inferInstanceAs (Decidable (_ ∧ _))

end Silkworm.Spec
