/-
Messages that are accepted one by one are accepted in one stream: the set `verifying` of `ingest_messages` does no harm.
-/
import Verif.Spec.Office
import Verif.Lemmas.Resend

namespace Keride.Sample

open Matter Spec

/-- A message reports a SAID. -/
def Says (E : Env) (x : Piece) (q : Str) : Prop :=
  (∃ s, Serder.newWithRaw E.fl (toUtf8 x.text) = .ok s ∧ Sadder.said E.chk s = .ok q) ∨
    ∃ c, Creder.newWithRaw E.fl (toUtf8 x.text) = .ok c ∧ Sadder.said E.chk c = .ok q

/-- A verifier accepts a message in the middle of any stream, unless it has met its SAID in the stream before. It keeps nothing else. -/
structure Accepts (E : Env) (fuel : Nat) (deep verify : Option Bool) (st : Store) (x : Piece) (st' : Store) : Prop where
  run : ∀ v : List Str, (∀ q, Says E x q → q ∉ v) →
    ∃ v', (∀ rest, ingestLoop E fuel deep verify st (x.parsed ++ rest) v = ingestLoop E fuel deep verify st' rest v') ∧
      ∀ q ∈ v', q ∈ v ∨ Says E x q ∨ Sample.Holds E st q
  holds : ∀ q, Sample.Holds E st' q → Sample.Holds E st q ∨ Says E x q

/-- It accepts the message alone. -/
theorem Accepts.once {E : Env} {fuel : Nat} {deep verify : Option Bool} {st st' : Store} {x : Piece} (h : Accepts E fuel deep verify st x st') :
    ingestLoop E fuel deep verify st x.parsed [] = (st', .ok ()) := by
  obtain ⟨v', h1, -⟩ := h.run [] (by simp)
  have := h1 []
  rw [List.append_nil] at this
  rw [this]
  rfl

/-- A verifier accepts messages one after the other. -/
inductive Flows (E : Env) (fuel : Nat) (deep verify : Option Bool) : Store → List Piece → Store → Prop
  | none (st : Store) : Flows E fuel deep verify st [] st
  | one (st st' st'' : Store) (xs : List Piece) (x : Piece) (before : Flows E fuel deep verify st xs st') (next : Accepts E fuel deep verify st' x st'') :
      Flows E fuel deep verify st (xs ++ [x]) st''

theorem Flows.takes {E : Env} {fuel : Nat} {deep verify : Option Bool} {st st' : Store} {xs : List Piece} (h : Flows E fuel deep verify st xs st') :
    Takes E fuel deep verify st xs st' := by
  induction h with
  | none => exact .none _
  | one st' st'' xs x _ next ih => exact .one _ _ _ _ _ ih next.once

theorem flows_append {E : Env} {fuel : Nat} {deep verify : Option Bool} {a b c : Store} {xs ys : List Piece} (h1 : Flows E fuel deep verify a xs b)
    (h2 : Flows E fuel deep verify b ys c) : Flows E fuel deep verify a (xs ++ ys) c := by
  induction h2 with
  | none => simpa using h1
  | one st' st'' ys y _ next ih =>
    rw [← List.append_assoc]
    exact .one _ _ _ _ _ ih next

theorem flows_one {E : Env} {fuel : Nat} {deep verify : Option Bool} {a b : Store} {x : Piece} (h : Accepts E fuel deep verify a x b) :
    Flows E fuel deep verify a [x] b := .one _ _ _ [] _ (.none a) h

theorem Flows.held {E : Env} {fuel : Nat} {deep verify : Option Bool} {st st' : Store} {xs : List Piece} (h : Flows E fuel deep verify st xs st') :
    ∀ q, Sample.Holds E st' q → Sample.Holds E st q ∨ ∃ x ∈ xs, Says E x q := by
  induction h with
  | none => exact fun q hq => .inl hq
  | one st' st'' xs x _ next ih =>
    intro q hq
    rcases next.holds q hq with h | h
    · exact (ih q h).imp id fun ⟨y, hy, h⟩ => ⟨y, by simp [hy], h⟩
    · exact .inr ⟨x, by simp, h⟩

/-- Messages that are accepted one by one, and report different SAIDs, are accepted in a stream. -/
theorem Flows.stream {E : Env} {fuel : Nat} {deep verify : Option Bool} {st st' : Store} {xs : List Piece} (h : Flows E fuel deep verify st xs st')
    (hd : xs.Pairwise fun x y => ∀ q, Says E x q → ¬ Says E y q) (hs : ∀ x ∈ xs, ∀ q, Says E x q → ¬ Sample.Holds E st q) :
    ∃ v', (∀ rest, ingestLoop E fuel deep verify st (xs.flatMap Piece.parsed ++ rest) [] = ingestLoop E fuel deep verify st' rest v') ∧
      ∀ q ∈ v', Sample.Holds E st q ∨ ∃ x ∈ xs, Says E x q := by
  induction h with
  | none => exact ⟨[], fun rest => by simp, by simp⟩
  | one st' st'' xs x before next ih =>
    obtain ⟨hd1, -, hd2⟩ := List.pairwise_append.mp hd
    obtain ⟨v1, h1, h2⟩ := ih hd1 fun y hy => hs y (by simp [hy])
    obtain ⟨v2, h3, h4⟩ := next.run v1 (by
      intro q hq hin
      rcases h2 q hin with h | ⟨y, hy, h⟩
      · exact hs x (by simp) q hq h
      · exact hd2 y hy x (by simp) q h hq)
    refine ⟨v2, fun rest => ?_, fun q hq => ?_⟩
    · rw [List.flatMap_append, List.append_assoc, h1, List.flatMap_cons, List.flatMap_nil, List.append_nil, h3]
    · rcases h4 q hq with h | h | h
      · exact (h2 q h).imp id fun ⟨y, hy, h⟩ => ⟨y, by simp [hy], h⟩
      · exact .inr ⟨x, by simp, h⟩
      · exact (before.held q h).imp id fun ⟨y, hy, h⟩ => ⟨y, by simp [hy], h⟩

theorem Flows.split {E : Env} {fuel : Nat} {deep verify : Option Bool} {st st' : Store} {zs : List Piece} (h : Flows E fuel deep verify st zs st') :
    ∀ xs ys, zs = xs ++ ys → ∃ s, Flows E fuel deep verify st xs s ∧ Flows E fuel deep verify s ys st' := by
  induction h with
  | none =>
    intro xs ys h
    obtain ⟨rfl, rfl⟩ := List.append_eq_nil_iff.mp h.symm
    exact ⟨st, .none _, .none _⟩
  | one st' st'' zs z before next ih =>
    intro xs ys h
    rcases List.eq_nil_or_concat ys with rfl | ⟨ys', y, rfl⟩
    · rw [List.append_nil] at h
      subst h
      exact ⟨st'', .one _ _ _ _ _ before next, .none _⟩
    · rw [List.concat_eq_append, ← List.append_assoc] at h
      obtain ⟨h1, h2⟩ := List.append_inj' h rfl
      cases h2
      obtain ⟨s, h3, h4⟩ := ih xs ys' h1
      rw [List.concat_eq_append]
      exact ⟨s, h3, .one _ _ _ _ _ h4 next⟩

/-! ## One message -/

theorem verify_default {verify : Option Bool} (hv : verify ≠ some false) : verify.getD true = true := by
  cases verify with
  | none => rfl
  | some b => cases b with
    | true => rfl
    | false => exact absurd rfl hv

/-- What a message adds to a verifier is the message. -/
theorem holds_key {E : Env} {st : Store} {x : Piece} {s : Sad} {p : Str} (hr : s.raw = toUtf8 x.text) (hread : Serder.newWithRaw E.fl (toUtf8 x.text) = .ok s) (q : Str)
    (h : Sample.Holds E (st.insertKeyEvent p x.whole) q) : Sample.Holds E st q ∨ Says E x q := by
  cases h with
  | key pre t s' mem read said =>
    by_cases hp : pre = p
    · subst hp
      rcases List.mem_append.mp (show t ∈ st.kels pre ++ [x.whole] by simpa [Store.insertKeyEvent, append] using mem) with h | h
      · exact .inl (.key pre t s' h read said)
      · rw [List.mem_singleton.mp h, show x.whole = x.text ++ x.attached from rfl, again_key hread hr] at read
        cases read
        exact .inr (.inl ⟨s, hread, said⟩)
    · exact .inl (.key pre t s' (by simpa [Store.insertKeyEvent, append, hp] using mem) read said)
  | tx pre t s' mem read said => exact .inl (.tx pre t s' mem read said)
  | cred t s' mem read said => exact .inl (.cred t s' mem read said)

theorem holds_tx {E : Env} {st : Store} {x : Piece} {s : Sad} {p : Str} (hr : s.raw = toUtf8 x.text) (hread : Serder.newWithRaw E.fl (toUtf8 x.text) = .ok s) (q : Str)
    (h : Sample.Holds E (st.insertTransactionEvent p x.whole) q) : Sample.Holds E st q ∨ Says E x q := by
  cases h with
  | tx pre t s' mem read said =>
    by_cases hp : pre = p
    · subst hp
      rcases List.mem_append.mp (show t ∈ st.tels pre ++ [x.whole] by simpa [Store.insertTransactionEvent, append] using mem) with h | h
      · exact .inl (.tx pre t s' h read said)
      · rw [List.mem_singleton.mp h, show x.whole = x.text ++ x.attached from rfl, again_key hread hr] at read
        cases read
        exact .inr (.inl ⟨s, hread, said⟩)
    · exact .inl (.tx pre t s' (by simpa [Store.insertTransactionEvent, append, hp] using mem) read said)
  | key pre t s' mem read said => exact .inl (.key pre t s' mem read said)
  | cred t s' mem read said => exact .inl (.cred t s' mem read said)

theorem holds_cred {E : Env} {st : Store} {x : Piece} {s : Sad} (hr : s.raw = toUtf8 x.text) (hread : Creder.newWithRaw E.fl (toUtf8 x.text) = .ok s) (q : Str)
    (h : Sample.Holds E (st.insertAcdc x.whole) q) : Sample.Holds E st q ∨ Says E x q := by
  cases h with
  | cred t s' mem read said =>
    rcases List.mem_append.mp (show t ∈ st.acdcs ++ [x.whole] from mem) with h | h
    · exact .inl (.cred t s' h read said)
    · rw [List.mem_singleton.mp h, show x.whole = x.text ++ x.attached from rfl, again_cred hread hr] at read
      cases read
      exact .inr (.inr ⟨s, hread, said⟩)
  | key pre t s' mem read said => exact .inl (.key pre t s' mem read said)
  | tx pre t s' mem read said => exact .inl (.tx pre t s' mem read said)

end Keride.Sample
