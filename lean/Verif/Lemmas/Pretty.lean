/-
The indented text is JSON for the value.
-/
import Verif.Model.Pretty
import Verif.Lemmas.JsonText
import Verif.Lemmas.JsonFloat
import Verif.Lemmas.Util
import Verif.Spec.Pretty

namespace Keride

open Spec Keride
namespace Pretty

theorem indent_blank : ∀ n, Blank (indent n)
  | 0 => by simp [indent, Blank]
  | n + 1 => by
    intro c hc
    simp only [indent, List.mem_cons] at hc
    rcases hc with rfl | rfl | hc
    · simp
    · simp
    · exact indent_blank n c hc

theorem blank_nl {w : Str} (h : Blank w) : Blank ('\n' :: w) := by
  intro c hc
  rcases List.mem_cons.mp hc with rfl | hc
  · simp
  · exact h c hc

theorem blank_app {w u : Str} (h : Blank w) (h' : Blank u) : Blank (w ++ u) := by
  intro c hc
  rcases List.mem_append.mp hc with hc | hc
  · exact h c hc
  · exact h' c hc

theorem spells_esc (s : Str) : Spells (escStr s) s := by
  obtain ⟨t, h1, h2⟩ := parseStr_sound _ _ _ _ (parseStr_json s [])
  rw [List.append_cancel_right h1]
  exact h2

theorem firstKeys_nodup : ∀ {l : List Str}, l.Nodup → firstKeys l = l
  | [], _ => rfl
  | k :: l, h => by
    rw [List.nodup_cons] at h
    rw [firstKeys, firstKeys_nodup h.2]
    refine congrArg _ (List.filter_eq_self.mpr fun x hx => ?_)
    simp only [decide_eq_true_eq]
    exact fun e => h.1 (e ▸ hx)

theorem objectOf_self {o : List (Str × Value)} (h : (o.map Prod.fst).Nodup) : ObjectOf o o := by
  refine ⟨(firstKeys_nodup h).symm, fun k v hm => ?_⟩
  obtain ⟨a, b, rfl⟩ := List.append_of_mem hm
  refine ⟨a, b, rfl, ?_⟩
  rw [List.map_append, List.map_cons] at h
  exact (List.nodup_cons.mp (List.nodup_append.mp h).2.1).1

theorem scalar_denotes {fl : Str → Option Str} {v : Value} {d : Nat} (hv : Proper (FloatText fl) v) (hd : nesting v ≤ d) : JsonText fl d v.toJson v :=
  (jsonParse_iff fl d _ v).mp (jsonParse_json (fun _ h => floatOk_text h) hv (by omega))

theorem item_text {fl : Str → Option Str} {d : Nat} {t w w' : Str} {v : Value} (h : JsonText fl d t v) (hw : Blank w) (hw' : Blank w') :
    Items fl d (w ++ (t ++ w')) [v] := by
  obtain ⟨a, u, b, rfl, ha, hu, hb⟩ := h
  have := Items.last d (blank_app hw ha) hu (blank_app hb hw')
  simpa using this

theorem item_more {fl : Str → Option Str} {d : Nat} {t w r : Str} {v : Value} {l : List Value} (h : JsonText fl d t v) (hw : Blank w)
    (hr : Items fl d r l) : Items fl d (w ++ (t ++ ',' :: r)) (v :: l) := by
  obtain ⟨a, u, b, rfl, ha, hu, hb⟩ := h
  have := Items.more d (blank_app hw ha) hu hb hr
  simpa using this

theorem entry_text {fl : Str → Option Str} {d : Nat} {t w w' : Str} {k : Str} {v : Value} (h : JsonText fl d t v) (hw : Blank w) (hw' : Blank w') :
    Entries fl d (w ++ (jsonStr k ++ ':' :: ' ' :: (t ++ w'))) [(k, v)] := by
  obtain ⟨a, u, b, rfl, ha, hu, hb⟩ := h
  have := Entries.last d hw (spells_esc k) (w₁ := []) (by simp [Blank]) (blank_app (w := [' ']) (by simp [Blank]) ha) hu (blank_app hb hw')
  simpa [jsonStr] using this

theorem entry_more {fl : Str → Option Str} {d : Nat} {t w r : Str} {k : Str} {v : Value} {l : List (Str × Value)} (h : JsonText fl d t v)
    (hw : Blank w) (hr : Entries fl d r l) : Entries fl d (w ++ (jsonStr k ++ ':' :: ' ' :: (t ++ ',' :: r))) ((k, v) :: l) := by
  obtain ⟨a, u, b, rfl, ha, hu, hb⟩ := h
  have := Entries.more d hw (spells_esc k) (w₁ := []) (by simp [Blank]) (blank_app (w := [' ']) (by simp [Blank]) ha) hu hb hr
  simpa [jsonStr] using this

theorem jsonText_of {fl : Str → Option Str} {d : Nat} {t : Str} {v : Value} (h : Denotes fl d t v) : JsonText fl d t v :=
  ⟨[], t, [], by simp, by simp [Blank], h, by simp [Blank]⟩

theorem items_false {n : Nat} : ∀ {l : List Value}, l ≠ [] → items n false l = ',' :: items n true l
  | [], h => absurd rfl h
  | v :: l, _ => by simp [items]

theorem entries_false {n : Nat} : ∀ {l : List (Str × Value)}, l ≠ [] → entries n false l = ',' :: entries n true l
  | [], h => absurd rfl h
  | (k, v) :: l, _ => by simp [entries]

mutual

theorem text_denotes {fl : Str → Option Str} : ∀ (v : Value) (d n : Nat), Proper (FloatText fl) v → nesting v ≤ d → JsonText fl d (text n v) v
  | .null, d, n, hv, hd => by rw [text]; exact scalar_denotes (v := .null) hv hd
  | .bool b, d, n, hv, hd => by rw [text]; exact scalar_denotes (v := .bool b) hv hd
  | .int i, d, n, hv, hd => by rw [text]; exact scalar_denotes (v := .int i) hv hd
  | .float t, d, n, hv, hd => by rw [text]; exact scalar_denotes (v := .float t) hv hd
  | .str s, d, n, hv, hd => by rw [text]; exact scalar_denotes (v := .str s) hv hd
  | .arr a, d, n, hv, hd => by
    rw [nesting] at hd
    obtain ⟨d, rfl⟩ : ∃ e, d = e + 1 := ⟨d - 1, by omega⟩
    rw [text]
    cases a with
    | nil =>
      refine jsonText_of ?_
      have := Denotes.noItems (fl := fl) d (w := []) (by simp [Blank])
      simpa [items] using this
    | cons x l =>
      have := items_denotes (x :: l) d (n + 1) ('\n' :: indent n) (by simp) (blank_nl (indent_blank n)) hv (by omega)
      refine jsonText_of ?_
      have := Denotes.items d this
      simpa using this
  | .obj o, d, n, hv, hd => by
    rw [nesting] at hd
    obtain ⟨d, rfl⟩ : ∃ e, d = e + 1 := ⟨d - 1, by omega⟩
    rw [text]
    cases o with
    | nil =>
      refine jsonText_of ?_
      have := Denotes.noEntries (fl := fl) d (w := []) (by simp [Blank])
      simpa [entries] using this
    | cons x l =>
      have := entries_denotes (x :: l) d (n + 1) ('\n' :: indent n) (by simp) (blank_nl (indent_blank n)) hv.2 (by omega)
      refine jsonText_of ?_
      have := Denotes.entries d this (objectOf_self hv.1)
      simpa using this

theorem items_denotes {fl : Str → Option Str} : ∀ (l : List Value) (d n : Nat) (w : Str), l ≠ [] → Blank w → ProperArr (FloatText fl) l →
    nestingArr l ≤ d → Items fl d (items n true l ++ w) l
  | [], _, _, _, h, _, _, _ => absurd rfl h
  | x :: l, d, n, w, _, hw, hv, hd => by
    rw [nestingArr] at hd
    have hx := text_denotes x d n hv.1 (by omega)
    by_cases e : l = []
    · subst e
      have := item_text hx (blank_nl (indent_blank n)) hw
      simpa [items] using this
    · have hr := items_denotes l d n w e hw hv.2 (by omega)
      have := item_more hx (blank_nl (indent_blank n)) hr
      rw [items, items_false e]
      simpa using this

theorem entries_denotes {fl : Str → Option Str} : ∀ (l : List (Str × Value)) (d n : Nat) (w : Str), l ≠ [] → Blank w →
    ProperObj (FloatText fl) l → nestingObj l ≤ d → Entries fl d (entries n true l ++ w) l
  | [], _, _, _, h, _, _, _ => absurd rfl h
  | (k, x) :: l, d, n, w, _, hw, hv, hd => by
    rw [nestingObj] at hd
    have hx := text_denotes x d n hv.1 (by omega)
    by_cases e : l = []
    · subst e
      have := entry_text (k := k) hx (blank_nl (indent_blank n)) hw
      simpa [entries] using this
    · have hr := entries_denotes l d n w e hw hv.2 (by omega)
      have := entry_more (k := k) hx (blank_nl (indent_blank n)) hr
      rw [entries, entries_false e]
      simpa using this

end

theorem mem_join {sep c : Char} {t : Str} {l : List Str} (ht : t ∈ l) (hc : c ∈ t) : c ∈ joinWith sep l := by
  induction l with
  | nil => cases ht
  | cons a l ih =>
    rw [joinWith_cons]
    rcases List.mem_cons.mp ht with rfl | ht
    · exact List.mem_append_left _ hc
    · cases l with
      | nil => cases ht
      | cons b l => exact List.mem_append_right _ (List.mem_cons_of_mem _ (ih ht))

theorem indent_chars {n : Nat} {c : Char} (h : c ∈ indent n) : c = ' ' := by
  induction n with
  | zero => cases h
  | succ n ih =>
    simp only [indent, List.mem_cons] at h
    rcases h with rfl | rfl | h
    · rfl
    · rfl
    · exact ih h

mutual

theorem text_chars : ∀ (v : Value) (n : Nat) (c : Char), c ∈ text n v → c ∈ v.toJson ∨ c.toNat < 128
  | .null, n, c, h => .inl (by simpa [text, Value.toJson] using h)
  | .bool b, n, c, h => .inl (by simpa [text, Value.toJson] using h)
  | .int i, n, c, h => .inl (by simpa [text, Value.toJson] using h)
  | .float t, n, c, h => .inl (by simpa [text, Value.toJson] using h)
  | .str s, n, c, h => .inl (by simpa [text, Value.toJson] using h)
  | .arr a, n, c, h => by
    simp only [text, List.mem_cons, List.mem_append] at h
    rw [Value.toJson]
    rcases h with rfl | h | h | h
    · exact .inr (by decide)
    · rcases items_chars a (n + 1) true c h with ⟨t, h1, h2⟩ | h
      · exact .inl (List.mem_cons_of_mem _ (List.mem_append_left _ (mem_join h1 h2)))
      · exact .inr h
    · split at h
      · cases h
      · rcases List.mem_cons.mp h with rfl | h
        · exact .inr (by decide)
        · rw [indent_chars h]; exact .inr (by decide)
    · simp only [List.not_mem_nil, or_false] at h
      subst h
      exact .inr (by decide)
  | .obj a, n, c, h => by
    simp only [text, List.mem_cons, List.mem_append] at h
    rw [Value.toJson]
    rcases h with rfl | h | h | h
    · exact .inr (by decide)
    · rcases entries_chars a (n + 1) true c h with ⟨t, h1, h2⟩ | h
      · exact .inl (List.mem_cons_of_mem _ (List.mem_append_left _ (mem_join h1 h2)))
      · exact .inr h
    · split at h
      · cases h
      · rcases List.mem_cons.mp h with rfl | h
        · exact .inr (by decide)
        · rw [indent_chars h]; exact .inr (by decide)
    · simp only [List.not_mem_nil, or_false] at h
      subst h
      exact .inr (by decide)

theorem items_chars : ∀ (l : List Value) (n : Nat) (b : Bool) (c : Char), c ∈ items n b l → (∃ t ∈ Value.jsonArr l, c ∈ t) ∨ c.toNat < 128
  | [], n, b, c, h => by simp [items] at h
  | v :: l, n, b, c, h => by
    simp only [items, List.mem_append] at h
    rcases h with h | h | h | h
    · right
      split at h <;> simp at h
      · subst h; decide
      · rcases h with rfl | rfl <;> decide
    · rw [indent_chars h]; exact .inr (by decide)
    · rcases text_chars v n c h with h | h
      · exact .inl ⟨_, by rw [Value.jsonArr]; exact List.mem_cons_self, h⟩
      · exact .inr h
    · rcases items_chars l n false c h with ⟨t, h1, h2⟩ | h
      · exact .inl ⟨t, by rw [Value.jsonArr]; exact List.mem_cons_of_mem _ h1, h2⟩
      · exact .inr h

theorem entries_chars : ∀ (l : List (Str × Value)) (n : Nat) (b : Bool) (c : Char), c ∈ entries n b l → (∃ t ∈ Value.jsonObj l, c ∈ t) ∨ c.toNat < 128
  | [], n, b, c, h => by simp [entries] at h
  | (k, v) :: l, n, b, c, h => by
    simp only [entries, List.mem_append, List.mem_cons] at h
    rcases h with h | h | h | rfl | rfl | h | h
    · right
      split at h <;> simp at h
      · subst h; decide
      · rcases h with rfl | rfl <;> decide
    · rw [indent_chars h]; exact .inr (by decide)
    · exact .inl ⟨_, by rw [Value.jsonObj]; exact List.mem_cons_self, List.mem_append_left _ h⟩
    · exact .inr (by decide)
    · exact .inr (by decide)
    · rcases text_chars v n c h with h | h
      · exact .inl ⟨_, by rw [Value.jsonObj]; exact List.mem_cons_self, List.mem_append_right _ (List.mem_cons_of_mem _ h)⟩
      · exact .inr h
    · rcases entries_chars l n false c h with ⟨t, h1, h2⟩ | h
      · exact .inl ⟨t, by rw [Value.jsonObj]; exact List.mem_cons_of_mem _ h1, h2⟩
      · exact .inr h

end

theorem slice_iff {s t : Str} {n : Nat} : s.sliceTo n = .ok t ↔ t <+: s ∧ t.len = n := by
  constructor
  · intro h
    obtain ⟨u, rfl, hn⟩ := sliceTo_ok h
    exact ⟨List.prefix_append _ _, hn⟩
  · rintro ⟨⟨u, rfl⟩, rfl⟩
    exact sliceTo_len t u

mutual

theorem proper_imp {F G : Str → Prop} (h : ∀ t, F t → G t) : ∀ v, Proper F v → Proper G v
  | .null, hv => hv
  | .bool _, hv => hv
  | .int _, hv => hv
  | .float t, hv => h t hv
  | .str _, hv => hv
  | .arr a, hv => properArr_imp h a hv
  | .obj o, hv => ⟨hv.1, properObj_imp h o hv.2⟩

theorem properArr_imp {F G : Str → Prop} (h : ∀ t, F t → G t) : ∀ l, ProperArr F l → ProperArr G l
  | [], _ => trivial
  | v :: l, hv => ⟨proper_imp h v hv.1, properArr_imp h l hv.2⟩

theorem properObj_imp {F G : Str → Prop} (h : ∀ t, F t → G t) : ∀ l, ProperObj F l → ProperObj G l
  | [], _ => trivial
  | (_, v) :: l, hv => ⟨proper_imp h v hv.1, properObj_imp h l hv.2⟩

end

end Pretty
end Keride
