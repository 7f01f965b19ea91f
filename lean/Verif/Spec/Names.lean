/-
What it is to be the key event with a number.
-/
import Verif.Spec.Batch

namespace Keride.Spec

open Sample

/-- `a` is kept as the event `n` of the log of `p`, is of `p` and has the number `n`. -/
def KeptAs (E : Env) (st : Store) (p : Str) (n : Nat) (a : Sad) : Prop :=
  ∃ t, (st.kels p)[n]? = some t ∧ Serder.newWithRaw E.fl (toUtf8 t) = .ok a ∧ Serder.pre a = .ok p ∧ Serder.sn a = .ok n

end Keride.Spec
