/-
C72: more key events that make a verifier panic.
-/
import Verif.Props.Stranger

namespace Keride.Props

open Spec Sample Matter

/-- An inception of one key, with a threshold, more keys, and without some fields, of which the identifier is rightly derived; signed by its key. -/
def World.oddly (kt : Str) (more without : List Str) : Res (List Msg) := do
  let a ← World.ks [1]
  let x ← a.verfersQb64 (World.env [])
  let o : List (Str × Value) := [(str% "v", .str (str% "KERI10JSON000000_")), (str% "t", .str (str% "icp")), (str% "d", .str []), (str% "i", .str []),
    (str% "s", .str (str% "0")), (str% "kt", .str kt), (str% "k", Sample.texts (x ++ more)), (str% "nt", .str (str% "0")), (str% "n", .arr []),
    (str% "bt", .str (str% "0")), (str% "b", .arr []), (str% "c", .arr []), (str% "a", .arr [])]
  let o := o.filter fun e => !without.contains e.1
  let p ← Prefixer.newWithKed World.hash (.obj o) none (some (str% "E"))
  let q ← qb64 true p
  let s ← Serder.newWithKed (fun _ => none) (.obj (Value.insert (str% "d") (.str q) (Value.insert (str% "i") (.str q) o))) none none
  let m ← World.signed (.ok a) (.ok s)
  .ok [m.1, m.2]

/-- With nothing odd about it, it is accepted. -/
example : ∃ msgs, World.oddly (str% "1") [] [] = .ok msgs ∧ (ingestLoop (World.env msgs) 5 none none Store.empty msgs []).2.isOk = true :=
  World.holds_ok (r := World.oddly (str% "1") [] []) (f := fun m => (ingestLoop (World.env m) 5 none none Store.empty m []).2.isOk) (by decide +kernel)

/-- C72 is false: an event without a sequence number. -/
theorem C72_sequence_false : ∃ msgs, World.oddly (str% "1") [] [str% "s"] = .ok msgs ∧ World.Crashes msgs := by
  obtain ⟨msgs, h1, h2⟩ := World.holds_ok (r := World.oddly (str% "1") [] [str% "s"]) (f := World.panics) (by decide +kernel)
  exact ⟨msgs, h1, World.crashes_of h2⟩

/-- C72 is false: a threshold that is a text that holds a list with an integer above the maximum of `i64`. -/
theorem C72_threshold_false : ∃ msgs, World.oddly (str% "[9223372036854775808]") [] [] = .ok msgs ∧ World.Crashes msgs := by
  obtain ⟨msgs, h1, h2⟩ := World.holds_ok (r := World.oddly (str% "[9223372036854775808]") [] []) (f := World.panics) (by decide +kernel)
  exact ⟨msgs, h1, World.crashes_of h2⟩

/-- C72 is false: a key of a code with a lead byte, of length zero. -/
theorem C72_key_false : ∃ msgs, World.oddly (str% "1") [str% "5AAA"] [] = .ok msgs ∧ World.Crashes msgs := by
  obtain ⟨msgs, h1, h2⟩ := World.holds_ok (r := World.oddly (str% "1") [str% "5AAA"] []) (f := World.panics) (by decide +kernel)
  exact ⟨msgs, h1, World.crashes_of h2⟩

/-- C72 is false: an event without an identifier. -/
theorem C72_identifier_false : ∃ msgs, World.craft (World.ks [1]) [(str% "v", .str (str% "KERI10JSON000000_")), (str% "t", .str (str% "icp")),
    (str% "d", .str []), (str% "s", .str (str% "0"))] = .ok msgs ∧ World.Crashes msgs := by
  obtain ⟨msgs, h1, h2⟩ := World.holds_ok (r := World.craft (World.ks [1]) [(str% "v", .str (str% "KERI10JSON000000_")), (str% "t", .str (str% "icp")),
    (str% "d", .str []), (str% "s", .str (str% "0"))]) (f := World.panics) (by decide +kernel)
  exact ⟨msgs, h1, World.crashes_of h2⟩

end Keride.Props
