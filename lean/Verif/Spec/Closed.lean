/-
Stores that differ only in what follows the first transaction event of a registry.
-/
import Verif.Model.Sample.Store

namespace Keride.Spec

open Sample

/-- The same is kept but for what follows the first event in the transaction log of `ri`. -/
structure AlikeBut (ri : Str) (st st' : Store) : Prop where
  kels : st'.kels = st.kels
  acdcs : st'.acdcs = st.acdcs
  tels : ∀ p, p ≠ ri → st'.tels p = st.tels p
  first : (st'.tels ri)[0]? = (st.tels ri)[0]?

end Keride.Spec
