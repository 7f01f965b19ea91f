/-
C122: the codes that have names in JavaScript.
-/
import Verif.Spec.WasmCodex
import Verif.Model.WasmCodex
import Verif.Model.Matter
import Verif.Model.Indexer

namespace Keride.Props

open Spec Wasm

theorem codex_mem {l : List (Str × Str)} {a b : Str} (h : l.lookup a = some b) : (a, b) ∈ l := by
  induction l with
  | nil => cases h
  | cons x l ih =>
    obtain ⟨k, v⟩ := x
    rw [List.lookup_cons] at h
    split at h
    · rename_i e
      cases h
      rw [beq_iff_eq.mp e]
      exact List.mem_cons_self
    · exact List.mem_cons_of_mem _ (ih h)

theorem codex_known {β : Type} {l : List (Str × β)} {a : Str} : (∃ b, l.lookup a = some b) ↔ a ∈ l.map Prod.fst := by
  induction l with
  | nil => simp
  | cons x l ih =>
    obtain ⟨k, v⟩ := x
    rw [List.lookup_cons]
    split
    · rename_i e
      simp [beq_iff_eq.mp e]
    · rename_i e
      have : a ≠ k := by simpa using e
      simp [ih, this]

theorem codex_faithful {arms constants : List (Str × Str)}
    (h1 : ∀ x ∈ arms, SameName x.1 x.2) (h2 : ∀ x ∈ arms, ∀ y ∈ arms, x.2 = y.2 → x.1 = y.1) (h3 : ∀ x ∈ constants, ∀ y ∈ constants, x.2 = y.2 → x.1 = y.1) :
    Faithful (fun name => (arms.lookup name).bind fun c => constants.lookup c) constants := by
  refine ⟨fun name c h => ?_, fun name name' c h h' => ?_⟩
  · obtain ⟨k, hk, hc⟩ := Option.bind_eq_some_iff.mp h
    exact ⟨k, codex_mem hc, h1 _ (codex_mem hk)⟩
  · obtain ⟨k, hk, hc⟩ := Option.bind_eq_some_iff.mp h
    obtain ⟨k', hk', hc'⟩ := Option.bind_eq_some_iff.mp h'
    have := h3 _ (codex_mem hc) _ (codex_mem hc') rfl
    exact h2 _ (codex_mem hk) _ (codex_mem hk') this

/-- C122, what holds instead: the names that JavaScript has are those of the constants with their codes, and different
names give different codes. -/
theorem C122_partial : Faithful matterCodexCode matterConstants ∧ Faithful indexerCodexCode indexerConstants :=
  ⟨codex_faithful (by decide +kernel) (by decide +kernel) (by decide +kernel), codex_faithful (by decide +kernel) (by decide +kernel) (by decide +kernel)⟩

/-- C122: the codes of the constants are those that the library can size, which is to say read and write. -/
theorem C122_codes (c : Str) : ((∃ z, Matter.sizage c = .ok z) ↔ ∃ k, (k, c) ∈ matterConstants) ∧ ((∃ z, Indexer.sizage c = .ok z) ↔ ∃ k, (k, c) ∈ indexerConstants) := by
  have key : ∀ (l : List (Str × Str)), (∃ k, (k, c) ∈ l) ↔ c ∈ l.map Prod.snd := fun l => by simp
  have s1 : (∃ z, Matter.sizage c = .ok z) ↔ c ∈ Matter.sizageTable.map Prod.fst := by
    rw [← codex_known]
    exact exists_congr fun z => Res.ofOption_eq_ok
  have s2 : (∃ z, Indexer.sizage c = .ok z) ↔ c ∈ Indexer.sizageTable.map Prod.fst := by
    rw [← codex_known]
    exact exists_congr fun z => Res.ofOption_eq_ok
  have sub : ∀ {a b : List Str}, (∀ x ∈ a, x ∈ b) → (∀ x ∈ b, x ∈ a) → (c ∈ a ↔ c ∈ b) := fun h h' => ⟨h c, h' c⟩
  rw [s1, s2, key, key]
  exact ⟨sub (by decide +kernel) (by decide +kernel), sub (by decide +kernel) (by decide +kernel)⟩

/-- C122, which codes are meant: those of all constants but the ones for NIST P-256 have a name in JavaScript, and those have none. -/
theorem C122_which_partial (k c : Str) : ((k, c) ∈ matterConstants → ((∃ name, matterCodexCode name = some c) ↔ ¬OfP256 k)) ∧
    ((k, c) ∈ indexerConstants → ((∃ name, indexerCodexCode name = some c) ↔ ¬OfP256 k)) := by
  have gen : ∀ {arms constants : List (Str × Str)}, (∀ x ∈ constants, ¬OfP256 x.1 → ∃ y ∈ arms, (arms.lookup y.1).bind (fun c => constants.lookup c) = some x.2) →
      (∀ x ∈ constants, OfP256 x.1 → ∀ y ∈ arms, constants.lookup y.2 ≠ some x.2) → (k, c) ∈ constants →
      ((∃ name, ((arms.lookup name).bind fun c => constants.lookup c) = some c) ↔ ¬OfP256 k) := fun h1 h2 hk => by
    refine ⟨fun ⟨name, hn⟩ hp => ?_, fun hp => ?_⟩
    · obtain ⟨k', hk', hc'⟩ := Option.bind_eq_some_iff.mp hn
      exact h2 _ hk hp _ (codex_mem hk') hc'
    · obtain ⟨y, -, hy⟩ := h1 _ hk hp
      exact ⟨y.1, hy⟩
  exact ⟨gen (by decide +kernel) (by decide +kernel), gen (by decide +kernel) (by decide +kernel)⟩

/-- C122 is false: the library reads and writes keys and signatures of NIST P-256, whose codes have no name in JavaScript. -/
theorem C122_false : (∃ z, Matter.sizage (str% "1AAJ") = .ok z) ∧ (∀ name, matterCodexCode name ≠ some (str% "1AAJ")) ∧
    (∃ z, Indexer.sizage (str% "E") = .ok z) ∧ ∀ name, indexerCodexCode name ≠ some (str% "E") := by
  have h1 := (C122_which_partial (str% "ECDSA_256r1") (str% "1AAJ")).1 (by decide +kernel)
  have h2 := (C122_which_partial (str% "ECDSA_256r1") (str% "E")).2 (by decide +kernel)
  have p : OfP256 (str% "ECDSA_256r1") := by decide +kernel
  exact ⟨(C122_codes _).1.mpr ⟨str% "ECDSA_256r1", by decide +kernel⟩, fun name h => h1.mp ⟨name, h⟩ p, (C122_codes _).2.mpr ⟨str% "ECDSA_256r1", by decide +kernel⟩,
    fun name h => h2.mp ⟨name, h⟩ p⟩

/-- Names that JavaScript has. -/
example : matterCodexCode (str% "Ed25519Seed") = some (str% "A") ∧ indexerCodexCode (str% "Ed448_Big_Crt") = some (str% "3B") := by decide +kernel

end Keride.Props
