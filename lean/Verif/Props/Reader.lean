/-
C94: verifiers with a parser of streams.
-/
import Verif.Props.Office
import Verif.Props.Market
import Verif.Lemmas.Reader

namespace Keride.Props

open Spec Sample Matter

/-- C94: there is a parser that does what verifiers may expect: the reader of Spec/Reader. -/
theorem C94_reader (E : Env) (h : E.parse = readStream E.chk E.fl) : ReadsStreams E := readStream_ok h

/-- C94: the messages of a session of one issuer. A verifier that knows nothing of the issuer calls `ingest_messages` with each of them, one after the other.
All calls succeed, and in the end it has all that the issuer has, and nothing else changed. -/
theorem C94_issuer (E : Env) (S : Stretch) (hC : CryptoOk E.C) (hH : HashOk E.H) (hstore : ∀ st t, E.refuses st t = false) (hparse : ReadsStreams E) (issuer : Str)
    (ri : Option Str) (ks nks : KeySet) (own : Store) (ms : List Str) (h : Office E S issuer ri ks nks own ms) (hm : ∀ m ∈ ms, (toUtf8 m).length < 2 ^ 32)
    (hlen : (own.kels issuer).length ≤ 2 ^ 32) (st : Store) (fuel : Nat) (deep verify : Option Bool) (hfuel : deep = some true → (own.kels issuer).length ≤ fuel)
    (hv : verify ≠ some false) (hst : Unknown E issuer own st) :
    ∃ st', Ingests E (fuel + 2) deep verify st ms st' ∧ Joined issuer st own st' := by
  obtain ⟨xs, rfl, hx, h⟩ := C92_accepted E S hC hH hstore issuer ri ks nks own ms h hm hlen
  obtain ⟨st', h1, h2⟩ := h st fuel deep verify hfuel hv (fun _ x hx' => hparse.reads (hx x hx')) hst
  exact ⟨st', hparse.ingests h1 hx, h2⟩

/-- C94: the messages of a session of several issuers, with credentials that rest on each other. -/
theorem C94_issuers (E : Env) (S : Stretch) (hC : CryptoOk E.C) (hH : HashOk E.H) (hstore : ∀ st t, E.refuses st t = false) (hparse : ReadsStreams E)
    (A : Str → Option Agent) (own : Store) (ms : List Str) (h : Market E S A own ms) (hm : ∀ m ∈ ms, (toUtf8 m).length < 2 ^ 32)
    (hlen : ∀ p, (own.kels p).length ≤ 2 ^ 32) :
    ∃ n, ∀ (st : Store) (fuel : Nat) (deep verify : Option Bool), n ≤ fuel → verify ≠ some false → Ignorant E own st →
      ∃ st', Ingests E fuel deep verify st ms st' ∧ Merged st own st' := by
  obtain ⟨xs, rfl, hx, n, h⟩ := C93_accepted E S hC hH hstore A own ms h hm hlen
  refine ⟨n, fun st fuel deep verify hf hv hst => ?_⟩
  obtain ⟨st', h1, h2⟩ := h st fuel deep verify hf hv (fun _ x hx' => hparse.reads (hx x hx')) hst
  exact ⟨st', hparse.ingests h1 hx, h2⟩

/-- C94: a verifier that starts with nothing ends with what the issuers have, whatever it verifies again. -/
theorem C94_same (E : Env) (S : Stretch) (hC : CryptoOk E.C) (hH : HashOk E.H) (hstore : ∀ st t, E.refuses st t = false) (hparse : ReadsStreams E)
    (A : Str → Option Agent) (own : Store) (ms : List Str) (h : Market E S A own ms) (hm : ∀ m ∈ ms, (toUtf8 m).length < 2 ^ 32)
    (hlen : ∀ p, (own.kels p).length ≤ 2 ^ 32) :
    ∃ n, ∀ (fuel : Nat) (deep verify : Option Bool), n ≤ fuel → verify ≠ some false →
      Ingests E fuel deep verify Store.empty ms own := by
  obtain ⟨n, h⟩ := C94_issuers E S hC hH hstore hparse A own ms h hm hlen
  refine ⟨n, fun fuel deep verify hf hv => ?_⟩
  obtain ⟨st', h1, h2⟩ := h Store.empty fuel deep verify hf hv ⟨fun _ _ => rfl, fun _ _ => rfl, fun _ _ t ht => by cases ht⟩
  rw [← merged_empty h2]
  exact h1

/-! ## Two issuers, and a verifier with the reader -/

/-- The environment of the examples, with the reader. -/
def World.reads : Env := World.parsing (readStream true (fun _ => none))

theorem World.reads_runs : World.marketCase World.reads.parse = true := by decide +kernel

/-- All that `C94_issuers` and `C94_same` ask for is met. -/
example : ∃ (own : Store) (ms : List Str) (n : Nat), ms.length = 15 ∧ own.acdcs.length = 2 ∧ ∀ deep,
    Ingests World.reads n deep none Store.empty ms own := by
  obtain ⟨A, own, ms, h1, h2, h3, h4, h5⟩ := World.market World.reads_runs
  obtain ⟨n, h6⟩ := C94_same World.reads World.stretch World.crypto_ok World.hash_ok (fun _ _ => rfl) (C94_reader _ rfl) A own ms h1 h5 h3
  exact ⟨own, ms, n, h2, h4, fun deep => h6 n deep none (Nat.le_refl _) (by simp)⟩

theorem World.reads_busy : World.busyCase World.reads.parse = true := by decide +kernel

/-- All that `C94_issuer` asks for is met: the store gets six key events, a registry and two credentials. -/
example : ∃ (issuer : Str) (own : Store) (ms : List Str), ms.length = 12 ∧ (own.kels issuer).length = 6 ∧ own.acdcs.length = 2 ∧ ∀ deep,
    ∃ st', Ingests World.reads 8 deep none Store.empty ms st' ∧ Joined issuer Store.empty own st' := by
  obtain ⟨issuer, ri, ks, nks, own, ms, h1, h2, h3, h4, h5⟩ := World.busy World.reads_busy
  exact ⟨issuer, own, ms, h2, h3, h4, fun deep => C94_issuer World.reads World.stretch World.crypto_ok World.hash_ok (fun _ _ => rfl) (C94_reader _ rfl) issuer _ ks nks own ms
    h1 h5 (by omega) Store.empty 6 deep none (fun _ => by omega) (by simp) ⟨rfl, fun _ _ => rfl, fun _ _ t ht => by cases ht⟩⟩

end Keride.Props
