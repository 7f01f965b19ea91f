/-
C95: the messages of issuers, in any division into streams.
-/
import Verif.Props.Reader

namespace Keride.Props

open Spec Sample Matter

theorem unmap_flatten {α β : Type} {f : α → β} : ∀ {ps : List (List β)} {xs : List α}, ps.flatten = xs.map f →
    ∃ cs : List (List α), cs.flatten = xs ∧ ps = cs.map (List.map f)
  | [], xs, h => by
    have : xs = [] := by simpa using h.symm
    exact ⟨[], by simp [this], rfl⟩
  | p :: ps, xs, h => by
    rw [List.flatten_cons] at h
    obtain ⟨a, b, rfl, rfl, h2⟩ := List.map_eq_append_iff.mp h.symm
    obtain ⟨cs, rfl, h4⟩ := unmap_flatten (f := f) h2.symm
    exact ⟨a :: cs, by simp, by simp [h4]⟩

/-- C95: the messages of a session of several issuers, with credentials that rest on each other, and any division of them into streams of any number of messages, in
the same order. A verifier that knows nothing of the issuers, and has met none of the SAIDs of the messages, calls `ingest_messages` with each of the streams, one
after the other. All calls succeed, and in the end it has all that the issuers have, and nothing else changed; unless the texts digested for two of the
messages are different and have the same digest. -/
theorem C95_streams (E : Env) (S : Stretch) (hC : CryptoOk E.C) (hH : HashOk E.H) (hstore : ∀ st t, E.refuses st t = false) (hparse : ReadsStreams E)
    (A : Str → Option Agent) (own : Store) (ms : List Str) (h : Market E S A own ms) (hm : ∀ m ∈ ms, (toUtf8 m).length < 2 ^ 32)
    (hlen : ∀ p, (own.kels p).length ≤ 2 ^ 32) :
    (∃ n, ∀ (streams : List (List Str)) (st : Store) (fuel : Nat) (deep verify : Option Bool), streams.flatten = ms → n ≤ fuel → verify ≠ some false →
      Ignorant E own st → Unmet E st ms →
      ∃ st', Ingests E fuel deep verify st (streams.map List.flatten) st' ∧ Merged st own st') ∨
    Collision E.H (str% "E") (MessageText E.fl ms) (MessageText E.fl ms) := by
  by_cases hcol : Collision E.H (str% "E") (MessageText E.fl ms) (MessageText E.fl ms)
  · exact .inr hcol
  left
  obtain ⟨xs, logs, rfl, hall, n, hcar⟩ := market_hall hC hH hstore h hm hlen
  refine ⟨n, fun streams st fuel deep verify hs hf hv hst hun => ?_⟩
  obtain ⟨cs, rfl, rfl⟩ := unmap_flatten hs
  obtain ⟨st', h1, h2⟩ := hcar st fuel deep verify hf hv (fun _ x hx => hparse.reads (hall.wellformed x hx)) hst
  refine ⟨st', ?_, h2⟩
  rw [List.map_map]
  refine flows_ingests hparse cs st' h1 ?_ ?_ hall.wellformed
  · refine List.Pairwise.imp_of_mem ?_ hall.told.apart
    intro x y hx hy hxy q h1 h2
    exact hcol ((hxy q h1 h2).mono (fun _ ⟨m, k1, k2⟩ => ⟨m, by rw [List.mem_singleton.mp k1]; exact List.mem_map_of_mem hx, k2⟩)
      fun _ ⟨m, k1, k2⟩ => ⟨m, by rw [List.mem_singleton.mp k1]; exact List.mem_map_of_mem hy, k2⟩)
  · intro x hx q hq hheld
    obtain ⟨P, hmark, -⟩ := hall.told.marks x hx
    have hrep := hmark.reports q hq
    have hun := hun x.whole (List.mem_map_of_mem hx) q hrep
    cases hheld with
    | key pre t s mem read said => exact hun t (.inr ⟨pre, .inl mem⟩) (.inl ⟨s, read, said⟩)
    | tx pre t s mem read said => exact hun t (.inr ⟨pre, .inr mem⟩) (.inl ⟨s, read, said⟩)
    | cred t s mem read said => exact hun t (.inl mem) (.inr ⟨s, read, said⟩)

/-- C95: all the messages in one stream, and a verifier that starts with nothing. One call of `ingest_messages` succeeds, and it leaves what the issuers have. -/
theorem C95_once (E : Env) (S : Stretch) (hC : CryptoOk E.C) (hH : HashOk E.H) (hstore : ∀ st t, E.refuses st t = false) (hparse : ReadsStreams E)
    (A : Str → Option Agent) (own : Store) (ms : List Str) (h : Market E S A own ms) (hm : ∀ m ∈ ms, (toUtf8 m).length < 2 ^ 32)
    (hlen : ∀ p, (own.kels p).length ≤ 2 ^ 32) :
    (∃ n, ∀ (fuel : Nat) (deep verify : Option Bool), n ≤ fuel → verify ≠ some false → ingest E fuel Store.empty ms.flatten deep verify = (own, .ok ())) ∨
      Collision E.H (str% "E") (MessageText E.fl ms) (MessageText E.fl ms) := by
  rcases C95_streams E S hC hH hstore hparse A own ms h hm hlen with ⟨n, h⟩ | h
  · refine .inl ⟨n, fun fuel deep verify hf hv => ?_⟩
    obtain ⟨st', h1, h2⟩ := h [ms] Store.empty fuel deep verify (by simp) hf hv ⟨fun _ _ => rfl, fun _ _ => rfl, fun _ _ t ht => by cases ht⟩
      (fun _ _ _ _ t ht => by rcases ht with ht | ⟨p, ht | ht⟩ <;> cases ht)
    rw [merged_empty h2] at h1
    generalize hz : List.map List.flatten [ms] = z at h1
    cases h1 with
    | none => cases hz
    | one st1 _ ms' m before next =>
      have : ms' = [] ∧ m = ms.flatten := by
        cases ms' with
        | nil => exact ⟨rfl, by simpa using hz.symm⟩
        | cons a l => simp at hz
      obtain ⟨rfl, rfl⟩ := this
      generalize hz' : ([] : List Str) = z at before
      cases before with
      | none => exact next
      | one => simp at hz'
  · exact .inr h

/-! ## Two issuers, and a verifier with the reader -/

/-- All that `C95_once` asks for is met: fifteen messages in one stream, with two credentials. -/
example : ∃ (own : Store) (ms : List Str), ms.length = 15 ∧ own.acdcs.length = 2 ∧
    ((∃ n, ∀ deep, ingest World.reads n Store.empty ms.flatten deep none = (own, .ok ())) ∨
      Collision World.reads.H (str% "E") (MessageText World.reads.fl ms) (MessageText World.reads.fl ms)) := by
  obtain ⟨A, own, ms, h1, h2, h3, h4, h5⟩ := World.market World.reads_runs
  refine ⟨own, ms, h2, h4, ?_⟩
  rcases C95_once World.reads World.stretch World.crypto_ok World.hash_ok (fun _ _ => rfl) (C94_reader _ rfl) A own ms h1 h5 h3 with ⟨n, h6⟩ | h6
  · exact .inl ⟨n, fun deep => h6 n deep none (Nat.le_refl _) (by simp)⟩
  · exact .inr h6

/-- All that `C95_streams` asks for is met, by the first four messages in one stream and the others in a second one. -/
example : ∃ (own : Store) (ms : List Str), ms.length = 15 ∧ own.acdcs.length = 2 ∧
    ((∃ n st', ∀ deep, Ingests World.reads n deep none Store.empty [(ms.take 4).flatten, (ms.drop 4).flatten] st') ∨
      Collision World.reads.H (str% "E") (MessageText World.reads.fl ms) (MessageText World.reads.fl ms)) := by
  obtain ⟨A, own, ms, h1, h2, h3, h4, h5⟩ := World.market World.reads_runs
  refine ⟨own, ms, h2, h4, ?_⟩
  rcases C95_streams World.reads World.stretch World.crypto_ok World.hash_ok (fun _ _ => rfl) (C94_reader _ rfl) A own ms h1 h5 h3 with ⟨n, h6⟩ | h6
  · refine .inl ⟨n, own, fun deep => ?_⟩
    obtain ⟨st', h7, h8⟩ := h6 [ms.take 4, ms.drop 4] Store.empty n deep none (by simp) (Nat.le_refl _) (by simp)
      ⟨fun _ _ => rfl, fun _ _ => rfl, fun _ _ t ht => by cases ht⟩ (fun _ _ _ _ t ht => by rcases ht with ht | ⟨p, ht | ht⟩ <;> cases ht)
    rw [merged_empty h8] at h7
    exact h7
  · exact .inr h6

end Keride.Props
