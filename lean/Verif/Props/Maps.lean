/-
C109: documents made from maps, and changed in place.
-/
import Verif.Model.Maps
import Verif.Lemmas.Json
import Verif.Lemmas.Common
import Verif.Lemmas.World

namespace Keride.Props

open Spec Matter

theorem fold_insert : ∀ (l o : List (Str × Value)), ((o ++ l).map Prod.fst).Nodup → l.foldl (fun map e => Value.insert e.1 e.2 map) o = o ++ l := by
  intro l
  induction l with
  | nil => intro o _; exact (List.append_nil o).symm
  | cons e l ih =>
    intro o h
    rw [List.foldl_cons, _root_.Keride.insert_new, ih, List.append_assoc, List.singleton_append]
    · rw [List.append_assoc, List.singleton_append]
      exact h
    · rw [List.map_append, List.nodup_append] at h
      exact fun hm => h.2.2 _ hm _ (List.mem_cons_self ..) rfl

theorem find_mem {k : Str} {x : Value} : ∀ {o : List (Str × Value)}, (o.map Prod.fst).Nodup → (Value.find k o = some x ↔ (k, x) ∈ o) := by
  intro o
  induction o with
  | nil => intro _; simp [Value.find]
  | cons e o ih =>
    intro h
    obtain ⟨k', v⟩ := e
    rw [List.map_cons, List.nodup_cons] at h
    rw [Value.find, List.mem_cons]
    split
    · rename_i he
      subst he
      constructor
      · intro hx
        cases hx
        exact .inl rfl
      · rintro (hx | hx)
        · cases hx; rfl
        · exact absurd (List.mem_map_of_mem (f := Prod.fst) hx) h.1
    · rename_i he
      rw [ih h.2]
      exact ⟨.inr, fun hx => hx.resolve_left fun hx => he (by cases hx; rfl)⟩

/-- C109: in whatever order the entries of a map are met, the document made from it has exactly these entries, and under
each key its value is read. -/
theorem C109_map (m l : List (Str × Value)) (hm : (m.map Prod.fst).Nodup) (hl : l.Perm m) :
    (∃ o, (Value.ofHashMap l).toMap = .ok o ∧ o.Perm m) ∧ ∀ k x, (Value.ofHashMap l).index k = .ok x ↔ (k, x) ∈ m := by
  have hn : (l.map Prod.fst).Nodup := (hl.map Prod.fst).nodup_iff.mpr hm
  have ho : Value.ofHashMap l = .obj l := congrArg Value.obj (fold_insert l [] hn)
  rw [ho]
  refine ⟨⟨l, rfl, hl⟩, fun k x => ?_⟩
  rw [← hl.mem_iff, ← find_mem hn]
  unfold Value.index
  dsimp only
  cases hf : Value.find k l <;> simp [Res.orPanic]

/-- A map that keeps the order of its entries determines the document. -/
theorem C109_ordered (m : List (Str × Value)) (hm : (m.map Prod.fst).Nodup) : Value.ofIndexMap m = .obj m ∧ Value.ofHashMap m = Value.ofIndexMap m :=
  ⟨rfl, congrArg Value.obj (fold_insert m [] hm)⟩

/-- C109: after a value was written under a key it is read there, under all other keys the same is read as before, and the
keys are in the order they were in, with a new one at the end. -/
theorem C109_write (o : List (Str × Value)) (k : Str) (x : Value) : ∃ o', (Value.obj o).setIndex k x = .ok (.obj o') ∧
    (Value.obj o').index k = .ok x ∧ (∀ k', k' ≠ k → (Value.obj o').index k' = (Value.obj o).index k') ∧
    o'.map Prod.fst = if k ∈ o.map Prod.fst then o.map Prod.fst else o.map Prod.fst ++ [k] := by
  refine ⟨Value.insert k x o, rfl, ?_, fun k' hk => ?_, ?_⟩
  · unfold Value.index
    dsimp only
    rw [find_insert_self]
    rfl
  · unfold Value.index
    dsimp only
    rw [find_insert_ne hk]
  · induction o with
    | nil => rfl
    | cons e o ih =>
      obtain ⟨k', v⟩ := e
      rw [Value.insert]
      by_cases he : k' = k
      · rw [if_pos he, if_pos (by rw [List.map_cons, he]; exact List.mem_cons_self ..)]
        rfl
      · rw [if_neg he, List.map_cons, ih, List.map_cons]
        by_cases hk : k ∈ o.map Prod.fst
        · rw [if_pos hk, if_pos (List.mem_cons_of_mem _ hk)]
        · rw [if_neg hk, if_neg (fun h => (List.mem_cons.mp h).elim (fun h => he h.symm) hk)]
          rfl

/-- C109: a place can be written exactly if it can be read; then what was written is read there, and everywhere else the same
as before. -/
theorem C109_at (v : Value) (i : Nat) (x : Value) :
    (∀ y, v.indexAt i = .ok y → ∃ v', v.setIndexAt i x = .ok v' ∧ v'.indexAt i = .ok x ∧ ∀ j, j ≠ i → v'.indexAt j = v.indexAt j) ∧
    (v.indexAt i = .panic ↔ v.setIndexAt i x = .panic) := by
  cases v with
  | arr a =>
    unfold Value.indexAt Value.setIndexAt
    dsimp only
    by_cases hi : i < a.length
    · rw [if_pos hi, List.getElem?_eq_getElem hi]
      refine ⟨fun y _ => ⟨_, rfl, ?_, fun j hj => ?_⟩, by simp [Res.orPanic]⟩
      · dsimp only
        rw [List.getElem?_set_self hi]
        rfl
      · dsimp only
        rw [List.getElem?_set_ne (Ne.symm hj)]
    · rw [if_neg hi, List.getElem?_eq_none (Nat.le_of_not_lt hi)]
      exact ⟨(fun y hy => by cases hy), by simp [Res.orPanic]⟩
  | obj o =>
    unfold Value.indexAt Value.setIndexAt
    dsimp only
    by_cases hi : i < o.length
    · rw [List.getElem?_eq_getElem hi]
      refine ⟨fun y _ => ⟨_, rfl, ?_, fun j hj => ?_⟩, by simp [Res.orPanic]⟩
      · dsimp only
        rw [List.getElem?_set_self hi]
        rfl
      · dsimp only
        rw [List.getElem?_set_ne (Ne.symm hj)]
    · rw [List.getElem?_eq_none (Nat.le_of_not_lt hi)]
      exact ⟨(fun y hy => by cases hy), by simp [Res.orPanic]⟩
  | _ => exact ⟨(fun y hy => by cases hy), ⟨fun _ => rfl, fun _ => rfl⟩⟩

/-- The SAID of a document made from a map, and its text. -/
def World.mapSaid (l : List (Str × Value)) : Res (Str × Str) := do
  let r ← Saider.saidify World.hash true (Value.ofHashMap l) none none none none
  let q ← qb64 true r.1
  .ok (q, (Value.ofHashMap l).toJson)

/-- A map with two entries, in two orders. -/
def World.two : List (Str × Value) := [(str% "d", .str []), (str% "a", .int 1)]

/-- The hypotheses of C109 are met by a map with two entries, met in the other order. -/
example : (World.two.map Prod.fst).Nodup ∧ World.two.reverse.Perm World.two ∧ World.two.reverse ≠ World.two :=
  ⟨by decide, List.reverse_perm _, fun h => absurd (congrArg (fun l => l.map Prod.fst) h) (by decide)⟩

/-- C109 is false of texts and SAIDs: two documents made from one map can have different texts, and different SAIDs. -/
theorem C109_said_false : ∃ (H : Hash) (m l : List (Str × Value)) (r r' : M × Value) (q q' : Str), HashOk H ∧ (m.map Prod.fst).Nodup ∧ l.Perm m ∧
    (Value.ofHashMap l).toJson ≠ (Value.ofHashMap m).toJson ∧
    Saider.saidify H true (Value.ofHashMap m) none none none none = .ok r ∧ Saider.saidify H true (Value.ofHashMap l) none none none none = .ok r' ∧
    qb64 true r.1 = .ok q ∧ qb64 true r'.1 = .ok q' ∧ q ≠ q' := by
  have key : ∀ l q t, World.mapSaid l = .ok (q, t) → ∃ r, Saider.saidify World.hash true (Value.ofHashMap l) none none none none = .ok r ∧
      qb64 true r.1 = .ok q ∧ (Value.ofHashMap l).toJson = t := by
    intro l q t h
    obtain ⟨r, h1, h⟩ := Res.bind_eq_ok.mp h
    obtain ⟨q', h2, h⟩ := Res.bind_eq_ok.mp h
    cases h
    exact ⟨r, h1, h2, rfl⟩
  have hd : (match World.mapSaid World.two, World.mapSaid World.two.reverse with
    | .ok a, .ok b => decide (a.1 ≠ b.1) && decide (b.2 ≠ a.2)
    | _, _ => false) = true := by decide +kernel
  split at hd
  · rename_i a b ha hb
    rw [Bool.and_eq_true, decide_eq_true_eq, decide_eq_true_eq] at hd
    obtain ⟨r, h1, h2, h3⟩ := key _ _ _ ha
    obtain ⟨r', k1, k2, k3⟩ := key _ _ _ hb
    exact ⟨World.hash, World.two, World.two.reverse, r, r', a.1, b.1, World.hash_ok, by decide, List.reverse_perm _, by rw [h3, k3]; exact hd.2, h1, k1, h2, k2, hd.1⟩
  · cases hd

end Keride.Props
