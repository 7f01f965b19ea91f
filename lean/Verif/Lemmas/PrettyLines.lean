/-
The indented text has the lines it is specified to have.
-/
import Verif.Lemmas.Pretty

namespace Keride

open Spec
namespace Pretty

/-- The lines, `n` levels to the right, one after another. -/
def at_ (n : Nat) (l : List Str) : Str := joinWith '\n' (l.map fun t => indent n ++ t)

theorem indent_succ : ∀ n, indent n ++ [' ', ' '] = indent (n + 1)
  | 0 => rfl
  | n + 1 => by rw [indent, List.cons_append, List.cons_append, indent_succ n]; rfl

theorem at_shifted (n : Nat) (l : List Str) : at_ n (shifted l) = at_ (n + 1) l := by
  unfold at_ shifted
  rw [List.map_map]
  refine congrArg _ (List.map_congr_left fun t _ => ?_)
  simp only [Function.comp]
  rw [← indent_succ]
  simp

theorem at_append (n : Nat) : ∀ {a b : List Str}, a ≠ [] → b ≠ [] → at_ n (a ++ b) = at_ n a ++ '\n' :: at_ n b
  | [], _, h, _ => absurd rfl h
  | [t], b, _, hb => by
    cases b with
    | nil => exact absurd rfl hb
    | cons u b => simp [at_, joinWith]
  | t :: u :: a, b, _, hb => by
    have := at_append n (a := u :: a) (by simp) hb
    simp only [at_, List.cons_append, List.map_cons, joinWith] at this ⊢
    rw [this]
    simp

theorem at_one (n : Nat) (t : Str) : at_ n [t] = indent n ++ t := by simp [at_, joinWith]

theorem at_comma (n : Nat) : ∀ {l : List Str}, l ≠ [] → at_ n (endedWithComma l) = at_ n l ++ [',']
  | [], h => absurd rfl h
  | [t], _ => by simp [endedWithComma, at_, joinWith]
  | t :: u :: l, _ => by
    have ih := at_comma n (l := u :: l) (by simp)
    have h1 : endedWithComma (u :: l) ≠ [] := by cases l <;> simp [endedWithComma]
    rw [endedWithComma, show t :: endedWithComma (u :: l) = [t] ++ endedWithComma (u :: l) from rfl, at_append n (by simp) h1, ih,
      show t :: u :: l = [t] ++ (u :: l) from rfl, at_append n (by simp) (by simp)]
    simp
    simp

theorem comma_ne {l : List Str} (h : l ≠ []) : endedWithComma l ≠ [] := by
  cases l with
  | nil => exact absurd rfl h
  | cons t l => cases l <;> simp [endedWithComma]

theorem at_started (n : Nat) (s : Str) {l : List Str} {r : Str} (hl : l ≠ []) (h : at_ n l = indent n ++ r) :
    at_ n (startedWith s l) = indent n ++ (s ++ r) := by
  cases l with
  | nil => exact absurd rfl hl
  | cons t l =>
    rw [startedWith]
    unfold at_ at h ⊢
    rw [List.map_cons, joinWith_cons] at h ⊢
    rw [List.append_assoc] at h ⊢
    rw [List.append_cancel_left_eq] at h
    rw [← h]
    simp

theorem started_ne {s : Str} {l : List Str} (h : l ≠ []) : startedWith s l ≠ [] := by
  cases l with
  | nil => exact absurd rfl h
  | cons t l => simp [startedWith]

theorem blocks_ne {b : List Str} {l : List (List Str)} (h : b ≠ []) : blocks (b :: l) ≠ [] := by
  cases l with
  | nil => exact h
  | cons c l => rw [blocks]; simp [comma_ne h]; simp

theorem linesOf_ne (v : Value) : linesOf v ≠ [] := by
  cases v with
  | arr a => cases a <;> simp [linesOf]
  | obj o => cases o <;> simp [linesOf]
  | _ => simp [linesOf]

mutual

theorem text_lines : ∀ (v : Value) (n : Nat), at_ n (linesOf v) = indent n ++ text n v
  | .null, n => by rw [linesOf, at_one, text, Value.toJson] <;> nofun
  | .bool b, n => by rw [linesOf, at_one, text, Value.toJson] <;> nofun
  | .int i, n => by rw [linesOf, at_one, text, Value.toJson] <;> nofun
  | .float t, n => by rw [linesOf, at_one, text, Value.toJson] <;> nofun
  | .str s, n => by rw [linesOf, at_one, text, Value.toJson] <;> nofun
  | .arr [], n => by rw [linesOf, at_one, text]; simp [items]
  | .arr (v :: l), n => by
    have h : blocks (linesOf v :: linesOfItems l) ≠ [] := blocks_ne (linesOf_ne v)
    have hs : shifted (blocks (linesOf v :: linesOfItems l)) ≠ [] := by simpa [shifted] using h
    have hi := items_lines (v :: l) (n + 1) (by simp)
    rw [linesOfItems] at hi
    rw [linesOf, show ∀ (a : Str) b, a :: b = [a] ++ b from fun _ _ => rfl, at_append n (by simp) (by simp), at_append n hs (by simp), at_shifted, at_one, at_one,
      text, hi]
    simp
  | .obj [], n => by rw [linesOf, at_one, text]; simp [entries]
  | .obj ((k, v) :: l), n => by
    have h : blocks (startedWith (jsonStr k ++ str% ": ") (linesOf v) :: linesOfEntries l) ≠ [] := blocks_ne (started_ne (linesOf_ne v))
    have hs : shifted (blocks (startedWith (jsonStr k ++ str% ": ") (linesOf v) :: linesOfEntries l)) ≠ [] := by simpa [shifted] using h
    have hi := entries_lines ((k, v) :: l) (n + 1) (by simp)
    rw [linesOfEntries] at hi
    rw [linesOf, show ∀ (a : Str) b, a :: b = [a] ++ b from fun _ _ => rfl, at_append n (by simp) (by simp), at_append n hs (by simp), at_shifted, at_one, at_one,
      text, hi]
    simp

theorem items_lines : ∀ (l : List Value) (n : Nat), l ≠ [] → items n true l = '\n' :: at_ n (blocks (linesOfItems l))
  | [], _, h => absurd rfl h
  | v :: l, n, _ => by
    have hv := text_lines v n
    by_cases e : l = []
    · subst e
      rw [linesOfItems, linesOfItems, blocks, hv]
      simp [items]
    · have ih := items_lines l n e
      rw [items, items_false e, ih, linesOfItems]
      cases l with
      | nil => exact absurd rfl e
      | cons w l =>
        have h2 : blocks (linesOfItems (w :: l)) ≠ [] := by rw [linesOfItems]; exact blocks_ne (linesOf_ne w)
        rw [show blocks (linesOf v :: linesOfItems (w :: l)) = endedWithComma (linesOf v) ++ blocks (linesOfItems (w :: l)) by
          rw [linesOfItems, blocks]; simp, at_append n (comma_ne (linesOf_ne v)) h2, at_comma n (linesOf_ne v), hv]
        simp

theorem entries_lines : ∀ (l : List (Str × Value)) (n : Nat), l ≠ [] → entries n true l = '\n' :: at_ n (blocks (linesOfEntries l))
  | [], _, h => absurd rfl h
  | (k, v) :: l, n, _ => by
    have hv := at_started n (jsonStr k ++ str% ": ") (linesOf_ne v) (text_lines v n)
    by_cases e : l = []
    · subst e
      rw [linesOfEntries, linesOfEntries, blocks, hv]
      simp [entries]
    · have ih := entries_lines l n e
      rw [entries, entries_false e, ih, linesOfEntries]
      cases l with
      | nil => exact absurd rfl e
      | cons w l =>
        have h2 : blocks (linesOfEntries (w :: l)) ≠ [] := by
          obtain ⟨j, w⟩ := w
          rw [linesOfEntries]; exact blocks_ne (started_ne (linesOf_ne w))
        rw [show blocks (startedWith (jsonStr k ++ str% ": ") (linesOf v) :: linesOfEntries (w :: l)) =
            endedWithComma (startedWith (jsonStr k ++ str% ": ") (linesOf v)) ++ blocks (linesOfEntries (w :: l)) by
          obtain ⟨j, w⟩ := w
          rw [linesOfEntries, blocks]; simp, at_append n (comma_ne (started_ne (linesOf_ne v))) h2, at_comma n (started_ne (linesOf_ne v)), hv]
        simp

end

theorem text_joined (v : Value) : text 0 v = joinWith '\n' (linesOf v) := by
  have := text_lines v 0
  simp only [at_, indent, List.nil_append, List.map_id'] at this
  exact this.symm

end Pretty
end Keride
