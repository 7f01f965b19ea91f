/-
What the JSON reader returns: distinct keys and integers in range.
-/
import Verif.Lemmas.Json

namespace Keride

open Spec

mutual

/-- What `serde_json` can hold: integers from the minimum of `i64` to the maximum of `u64`, distinct keys. -/
def JProper : Value → Prop
  | .int i => -2 ^ 63 ≤ i ∧ i < 2 ^ 64
  | .arr a => JProperArr a
  | .obj o => (o.map Prod.fst).Nodup ∧ JProperObj o
  | _ => True

def JProperArr : List Value → Prop
  | [] => True
  | v :: l => JProper v ∧ JProperArr l

def JProperObj : List (Str × Value) → Prop
  | [] => True
  | (_, v) :: l => JProper v ∧ JProperObj l

end

theorem insert_keys (k : Str) (x : Value) (o : List (Str × Value)) :
    (Value.insert k x o).map Prod.fst = if k ∈ o.map Prod.fst then o.map Prod.fst else o.map Prod.fst ++ [k] := by
  induction o with
  | nil => simp [Value.insert]
  | cons p o ih =>
    obtain ⟨k', v⟩ := p
    rw [Value.insert]
    by_cases h : k' = k
    · subst h; simp
    · rw [if_neg h, List.map_cons, ih]
      have : k ≠ k' := fun e => h e.symm
      simp only [List.map_cons, List.mem_cons, this, false_or]
      split <;> rfl

theorem insert_nodup {k : Str} {x : Value} {o : List (Str × Value)} (h : (o.map Prod.fst).Nodup) :
    ((Value.insert k x o).map Prod.fst).Nodup := by
  rw [insert_keys]
  split
  · exact h
  · rename_i hk
    rw [List.nodup_append]
    refine ⟨h, by simp, ?_⟩
    intro a ha b hb
    rw [List.mem_singleton] at hb
    rintro rfl
    exact hk (hb ▸ ha)

theorem insert_proper {F : Str → Prop} {k : Str} {x : Value} (hx : Proper F x) : ∀ {o : List (Str × Value)}, ProperObj F o →
    ProperObj F (Value.insert k x o)
  | [], _ => ⟨hx, trivial⟩
  | (k', v) :: o, h => by
    rw [ProperObj] at h
    rw [Value.insert]
    split
    · exact ⟨hx, h.2⟩
    · exact ⟨h.1, insert_proper hx h.2⟩

theorem insert_jproper {k : Str} {x : Value} (hx : JProper x) : ∀ {o : List (Str × Value)}, JProperObj o →
    JProperObj (Value.insert k x o)
  | [], _ => ⟨hx, trivial⟩
  | (k', v) :: o, h => by
    rw [JProperObj] at h
    rw [Value.insert]
    split
    · exact ⟨hx, h.2⟩
    · exact ⟨h.1, insert_jproper hx h.2⟩

theorem intOf_range {neg : Bool} {s : Str} {i : Int} (h : intOf neg s = some i) : -2 ^ 63 ≤ i ∧ i < 2 ^ 64 := by
  unfold intOf at h
  split at h
  · cases h
  · split at h
    · split at h
      · have := Option.some.inj h; omega
      · cases h
    · split at h
      · have := Option.some.inj h; omega
      · cases h

theorem parseNum_jproper {fl : Str → Option Str} {s r : Str} {v : Value} (h : parseNum fl s = some (v, r)) : JProper v := by
  unfold parseNum at h
  dsimp only at h
  generalize decide (s.head? = some '-') = neg at h
  generalize (if neg = true then s.drop 1 else s) = u at h
  split at h
  · cases h
  · split at h
    · cases h
    · split at h
      · cases h
      · split at h
        · cases h
        · split at h
          · rename_i i hi
            cases h
            split at hi
            · rw [JProper]; exact intOf_range hi
            · cases hi
          · rw [Option.map_eq_some_iff] at h
            obtain ⟨t, -, e⟩ := h
            cases e
            simp [JProper]

theorem parse_jproper (fl : Str → Option Str) (fuel : Nat) :
    (∀ depth s v r, parseVal fl fuel depth s = some (v, r) → JProper v) ∧
    (∀ depth s l r, parseElems fl fuel depth s = some (l, r) → JProperArr l) ∧
    (∀ depth o s l r, (o.map Prod.fst).Nodup → JProperObj o → parseEntries fl fuel depth o s = some (l, r) →
      (l.map Prod.fst).Nodup ∧ JProperObj l) := by
  induction fuel with
  | zero =>
    refine ⟨?_, ?_, ?_⟩
    · intro d s v r h; simp [parseVal] at h
    · intro d s v r h; simp [parseElems] at h
    · intro d o s l r _ _ h; simp [parseEntries] at h
  | succ fuel ih =>
    obtain ⟨ih1, ih2, ih3⟩ := ih
    refine ⟨?_, ?_, ?_⟩
    · intro depth s v r h
      rw [parseVal] at h
      split at h
      · cases h
      · rename_i c t _
        have aux : ∀ {α : Type} {o : Option α} {f : α → Value × Str}, o.map f = some (v, r) → ∃ a, o = some a ∧ f a = (v, r) := by
          intro α o f h
          exact Option.map_eq_some_iff.mp h
        split at h
        · obtain ⟨a, -, e⟩ := aux h; cases e; simp [JProper]
        · split at h
          · obtain ⟨a, -, e⟩ := aux h; cases e; simp [JProper]
          · split at h
            · obtain ⟨a, -, e⟩ := aux h; cases e; simp [JProper]
            · split at h
              · obtain ⟨a, -, e⟩ := aux h; cases e; simp [JProper]
              · split at h
                · split at h
                  · cases h
                  · split at h
                    · cases h; simp [JProper, JProperArr]
                    · obtain ⟨⟨l, r'⟩, h1, e⟩ := aux h
                      cases e
                      rw [JProper]
                      exact ih2 _ _ _ _ h1
                · split at h
                  · split at h
                    · cases h
                    · split at h
                      · cases h; simp [JProper, JProperObj]
                      · obtain ⟨⟨l, r'⟩, h1, e⟩ := aux h
                        cases e
                        rw [JProper]
                        exact ih3 _ [] _ _ _ (by simp) trivial h1
                  · exact parseNum_jproper h
    · intro depth s l r h
      rw [parseElems] at h
      split at h
      · cases h
      · rename_i v r1 hv
        have hv' := ih1 _ _ _ _ hv
        split at h
        · cases h
        · split at h
          · rw [Option.map_eq_some_iff] at h
            obtain ⟨⟨l', r'⟩, h1, e⟩ := h
            cases e
            exact ⟨hv', ih2 _ _ _ _ h1⟩
          · split at h
            · cases h; exact ⟨hv', trivial⟩
            · cases h
    · intro depth o s l r hn ho h
      rw [parseEntries] at h
      split at h
      · cases h
      · split at h
        · split at h
          · cases h
          · split at h
            · cases h
            · split at h
              · split at h
                · cases h
                · rename_i v r1 hv
                  have hv' := ih1 _ _ _ _ hv
                  split at h
                  · cases h
                  · split at h
                    · exact ih3 _ _ _ _ _ (insert_nodup hn) (insert_jproper hv' ho) h
                    · split at h
                      · cases h; exact ⟨insert_nodup hn, insert_jproper hv' ho⟩
                      · cases h
              · cases h
        · cases h

theorem jsonParse_jproper {fl : Str → Option Str} {depth : Nat} {s : Str} {v : Value} (h : jsonParse fl depth s = .ok v) :
    JProper v := by
  unfold jsonParse at h
  split at h
  · cases h
  · rename_i hv
    split at h
    · cases h; exact (parse_jproper fl _).1 _ _ _ _ hv
    · cases h

mutual

theorem ofJson_proper : ∀ (v x : Value), JProper v → v.ofJson = .ok x → Proper (fun t => '.' ∈ t) x
  | .null, x, _, h => by rw [Value.ofJson] at h; cases h; simp [Proper]
  | .bool b, x, _, h => by rw [Value.ofJson] at h; cases h; simp [Proper]
  | .int i, x, hp, h => by
    rw [Value.ofJson] at h
    rw [JProper] at hp
    split at h
    · cases h; rw [Proper]; exact ⟨hp.1, by assumption⟩
    · cases h
  | .float t, x, _, h => by
    rw [Value.ofJson] at h
    split at h
    · cases h; rw [Proper]; assumption
    · cases h
  | .str s, x, _, h => by rw [Value.ofJson] at h; cases h; simp [Proper]
  | .arr a, x, hp, h => by
    rw [JProper] at hp
    rw [Value.ofJson, Res.bind_eq_ok] at h
    obtain ⟨l, h1, h2⟩ := h
    cases h2
    rw [Proper]
    exact ofJsonArr_proper a l hp h1
  | .obj o, x, hp, h => by
    rw [JProper] at hp
    rw [Value.ofJson, Res.bind_eq_ok] at h
    obtain ⟨l, h1, h2⟩ := h
    cases h2
    rw [Proper]
    exact ofJsonObj_proper o [] l hp.2 (by simp) trivial h1

theorem ofJsonArr_proper : ∀ (l x : List Value), JProperArr l → Value.ofJsonArr l = .ok x → ProperArr (fun t => '.' ∈ t) x
  | [], x, _, h => by rw [Value.ofJsonArr] at h; cases h; trivial
  | v :: l, x, hp, h => by
    rw [JProperArr] at hp
    rw [Value.ofJsonArr, Res.bind_eq_ok] at h
    obtain ⟨y, h1, h⟩ := h
    rw [Res.bind_eq_ok] at h
    obtain ⟨ys, h2, h⟩ := h
    cases h
    exact ⟨ofJson_proper v y hp.1 h1, ofJsonArr_proper l ys hp.2 h2⟩

theorem ofJsonObj_proper : ∀ (l m x : List (Str × Value)), JProperObj l → (m.map Prod.fst).Nodup →
    ProperObj (fun t => '.' ∈ t) m → Value.ofJsonObj l m = .ok x →
    (x.map Prod.fst).Nodup ∧ ProperObj (fun t => '.' ∈ t) x
  | [], m, x, _, hn, hm, h => by rw [Value.ofJsonObj] at h; cases h; exact ⟨hn, hm⟩
  | (k, v) :: l, m, x, hp, hn, hm, h => by
    rw [JProperObj] at hp
    rw [Value.ofJsonObj, Res.bind_eq_ok] at h
    obtain ⟨y, h1, h⟩ := h
    exact ofJsonObj_proper l _ x hp.2 (insert_nodup hn) (insert_proper (ofJson_proper v y hp.1 h1) hm) h

end

theorem jsonRead_proper {fl : Str → Option Str} {s : Str} {v : Value} (h : jsonRead fl s = .ok v) :
    Proper (fun t => '.' ∈ t) v := by
  unfold jsonRead at h
  rw [Res.bind_eq_ok] at h
  obtain ⟨w, h1, h2⟩ := h
  exact ofJson_proper w v (jsonParse_jproper h1) h2

end Keride
