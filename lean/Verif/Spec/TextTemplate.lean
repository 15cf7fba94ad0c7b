import Verif.Model.Render
import Verif.Spec.Svcdef

/-!
# Shapes of data, and what it means that two data agree on a shape

A shape lists fields a template may read. Two data agree on a shape if the fields listed there exist in both and hold the same.
-/

namespace Baron.TT

open Baron.Svcdef (All2)

inductive Ty where
  | str
  /-- a string that is only compared with the strings `ks` -/
  | choice (ks : List Str)
  | bool
  /-- anything that is only tested for being empty or false -/
  | tested
  /-- a list, never empty if `ne` -/
  | list (ne : Bool) (t : Ty)
  | struct
  /-- a struct with the field `n` and those of `rest` -/
  | fld (n : Str) (t rest : Ty)
  deriving Repr, DecidableEq

/-- The two data have the shape and are equal as far as it goes. -/
def Agree : Ty → Val → Val → Prop
  | .str, v, w => ∃ s, v = .str s ∧ w = .str s
  | .choice ks, v, w => ∃ s s', v = .str s ∧ w = .str s' ∧ ∀ k ∈ ks, (s = k ↔ s' = k)
  | .bool, v, w => ∃ b, v = .bool b ∧ w = .bool b
  | .tested, v, w => v.truth = w.truth
  | .list ne t, v, w => ∃ l l', v = .list l ∧ w = .list l' ∧ (ne = true → l ≠ []) ∧ All2 (Agree t) l l'
  | .struct, v, w => (∃ a, v = .struct a) ∧ ∃ b, w = .struct b
  | .fld n t rest, v, w => (∃ a b, v.field n = some a ∧ w.field n = some b ∧ Agree t a b) ∧ Agree rest v w

/-- The data has the shape. -/
def Has (t : Ty) (v : Val) : Prop := Agree t v v

end Baron.TT
