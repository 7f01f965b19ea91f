/-
Who controls a transaction event, and what it is to be sealed together with others.
-/
import Verif.Spec.Tel

namespace Keride.Spec

open Sample Matter

/-- `ii` is the controller of the transaction event `e`: the inception of a registry names them, and an issuance or a
revocation names a registry whose first event in the store names them. -/
def TxController (E : Env) (st : Store) (ii : Str) (e : Sad) : Prop :=
  (HasText (str% "t") (str% "vcp") e ∧ HasText (str% "ii") ii e) ∨
  ((HasText (str% "t") (str% "iss") e ∨ HasText (str% "t") (str% "rev") e) ∧
    ∃ ri text r, HasText (str% "ri") ri e ∧ (st.tels ri)[0]? = some text ∧ Serder.newWithRaw E.fl (toUtf8 text) = .ok r ∧ HasText (str% "ii") ii r)

/-- Among the seals of the key event `a` is one that names the transaction event `e`. -/
def SealsToo (chk : Bool) (a e : Sad) : Prop :=
  ∃ l, field (str% "a") a.ked = some (.arr l) ∧ ∃ sl ∈ l, ∃ i n d, field (str% "i") sl = some (.str i) ∧ field (str% "s") sl = some (.str n) ∧
    field (str% "d") sl = some (.str d) ∧ HasText (str% "i") i e ∧ HasText (str% "s") n e ∧ Sadder.said chk e = .ok d

/-- The couple `c` names the event that is kept for `ii` with the number `n`, which is `a`. -/
def CoupleNames (E : Env) (st : Store) (ii : Str) (c : M × M) (a : Sad) : Prop :=
  ∃ n t q, Seqner.sn c.1 = .ok n ∧ n < 2 ^ 32 ∧ (st.kels ii)[n]? = some t ∧ Serder.newWithRaw E.fl (toUtf8 t) = .ok a ∧ Sadder.said E.chk a = .ok q ∧ qb64 E.chk c.2 = .ok q

end Keride.Spec
