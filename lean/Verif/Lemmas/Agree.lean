/-
Valid logs with the same last SAID, up to hash collisions.
-/
import Verif.Lemmas.Kel

namespace Keride

open Matter Spec Sample

theorem toJson_inj_dec {v w : Value} (hv : Proper IsDecimal v) (hw : Proper IsDecimal w) (h : v.toJson = w.toJson) : v = w := by
  have hF : ∀ t, IsDecimal t → FloatOk (fun t => some t) t := fun t ht => floatOk_decimal ht rfl
  have h1 := jsonParse_json hF hv (depth := nesting v + nesting w + 1) (by omega)
  have h2 := jsonParse_json hF hw (depth := nesting v + nesting w + 1) (by omega)
  rw [h, h2] at h1
  exact (Res.ok.inj h1).symm

/-- A text put into a field. -/
theorem field_put {l k t : Str} (hl : l ≠ k) (o : List (Str × Value)) :
    field l (.obj (o.map fun e => if e.1 = k then (e.1, .str t) else e)) = field l (.obj o) := by
  unfold field
  dsimp only
  induction o with
  | nil => rfl
  | cons e o ih =>
    rw [List.map_cons, List.find?_cons, List.find?_cons]
    by_cases hk : e.1 = k
    · rw [if_pos hk]
      have : e.1 ≠ l := fun h => hl (h.symm.trans hk)
      simpa [this] using ih
    · rw [if_neg hk]
      by_cases he : e.1 = l
      · simp [he]
      · simpa [he] using ih

theorem keys_put {k t : Str} (o : List (Str × Value)) :
    (o.map fun e => if e.1 = k then (e.1, Value.str t) else e).map Prod.fst = o.map Prod.fst := by
  rw [List.map_map]
  apply List.map_congr_left
  intro e _
  dsimp only [Function.comp]
  split <;> rfl

theorem proper_put {F : Str → Prop} {k t : Str} {o : List (Str × Value)} (h : Proper F (.obj o)) :
    Proper F (.obj (o.map fun e => if e.1 = k then (e.1, .str t) else e)) := by
  rw [Proper] at h ⊢
  rw [keys_put]
  refine ⟨h.1, ?_⟩
  rw [Saider.properObj_mem] at h ⊢
  intro e he
  obtain ⟨x, hx, rfl⟩ := List.mem_map.mp he
  split
  · simp [Proper]
  · exact h.2 x hx

theorem head_put {k t : Str} (o : List (Str × Value)) :
    (o.map fun e => if e.1 = k then (e.1, Value.str t) else e).head?.map Prod.fst = o.head?.map Prod.fst := by
  cases o with
  | nil => rfl
  | cons e o =>
    simp only [List.map_cons, List.head?_cons, Option.map_some]
    split <;> rfl

/-- An event is addressed by a document that has its fields but for those listed. -/
def ByContent (H : Hash) (chk : Bool) (s : Sad) (but : List Str) : Prop :=
  ∃ w, (EventText s (Value.obj w).toJson ∧ Addressed H chk s (Value.obj w).toJson) ∧ Proper IsDecimal (.obj w) ∧ ∀ l, l ∉ but → field l (.obj w) = field l s.ked

theorem byContent_self {H : Hash} {chk : Bool} {s : Sad} (h : SelfAddressed H chk s) (ho : Ordinary s) : ByContent H chk s [str% "d"] := by
  obtain ⟨o, e, ha⟩ := h
  obtain ⟨o', e', -, hp⟩ := ho
  rw [e] at e'
  cases e'
  refine ⟨_, ⟨⟨o, e, .inl rfl⟩, ha⟩, proper_put hp, ?_⟩
  intro l hl
  rw [e]
  exact field_put (by simpa using hl) o

theorem byContent_icp {H : Hash} {chk : Bool} {s : Sad} (h : InceptionAddressed H chk s) (ho : Ordinary s) :
    ByContent H chk s [str% "d", str% "i", str% "v"] := by
  obtain ⟨o, text, e, hz, ha⟩ := h
  obtain ⟨vs, -, -, hr⟩ := id hz
  obtain ⟨o', e', hh, hp⟩ := ho
  rw [e] at e'
  cases e'
  have := hr (by
    unfold blanked
    rw [head_put, head_put]
    exact hh)
  rw [this] at ha hz
  refine ⟨_, ⟨⟨o, e, .inr hz⟩, ha⟩, proper_put (proper_put (proper_put hp)), ?_⟩
  intro l hl
  simp only [List.mem_cons, List.not_mem_nil, or_false, not_or] at hl
  rw [e, field_put hl.2.2]
  unfold blanked
  rw [field_put hl.1, field_put hl.2.1]

theorem same_content {H : Hash} {chk : Bool} {s s' : Sad} {b b' : List Str} {q : Str} (h : ByContent H chk s b) (h' : ByContent H chk s' b')
    (hq : Sadder.said chk s = .ok q) (hq' : Sadder.said chk s' = .ok q) :
    Collision H (str% "E") (EventText s) (EventText s') ∨ ∀ l, l ∉ b → l ∉ b' → field l s.ked = field l s'.ked := by
  obtain ⟨w, ⟨hw, u, h1, h2⟩, h3, h4⟩ := h
  obtain ⟨w', ⟨hw', u', h1', h2'⟩, h3', h4'⟩ := h'
  rw [hq] at h1
  cases h1
  rw [hq'] at h1'
  cases h1'
  rw [h2] at h2'
  have he : H (str% "E") (toUtf8 (Value.obj w).toJson) = H (str% "E") (toUtf8 (Value.obj w').toJson) := by
    simpa using h2'
  by_cases hx : toUtf8 (Value.obj w).toJson = toUtf8 (Value.obj w').toJson
  · right
    have := toJson_inj_dec h3 h3' (toUtf8_inj hx)
    intro l hl hl'
    rw [← h4 l hl, ← h4' l hl', this]
  · exact .inl ⟨_, _, hw, hw', fun e => hx (by rw [e]), he⟩

theorem Spec.Collision.mono {H : Hash} {code : Str} {A B A' B' : Str → Prop} (h : Collision H code A B) (ha : ∀ t, A t → A' t) (hb : ∀ t, B t → B' t) :
    Collision H code A' B' := by
  obtain ⟨a, b, h1, h2, h3⟩ := h
  exact ⟨a, b, ha a h1, hb b h2, h3⟩

section
variable {H : Hash} {C : Crypto} {chk : Bool} {fl : Str → Option Str} {pre : Str}

/-- The last event of a log, seen from outside: an inception, or an event that continues a log. -/
theorem ValidLog.last {log : List Entry} (h : ValidLog H C chk fl pre log) (ho : ∀ e ∈ log, Ordinary e.sad) :
    (∃ e, log = [e] ∧ HasText (str% "t") (str% "icp") e.sad ∧ HasText (str% "i") pre e.sad ∧
      ByContent H chk e.sad [str% "d", str% "i", str% "v"]) ∨
    (∃ l e prev q, log = l ++ [e] ∧ ValidLog H C chk fl pre l ∧ ¬ HasText (str% "t") (str% "icp") e.sad ∧ HasText (str% "i") pre e.sad ∧
      ByContent H chk e.sad [str% "d"] ∧ l.getLast? = some prev ∧ Sadder.said chk prev.sad = .ok q ∧ HasText (str% "p") q e.sad) := by
  cases h with
  | incept e keys t sigs type ident sn said fields digest own threshold signed =>
    exact .inl ⟨e, rfl, type, ident, byContent_icp digest (ho e (by simp))⟩
  | rotate l e prev est psaid keys digests t n sigs before type ident sn fields digest last prior chained own threshold signed latest next nextThreshold committed =>
    refine .inr ⟨l, e, prev, psaid, rfl, before, ?_, ident, byContent_self digest (ho e (by simp)), last, prior, chained⟩
    unfold HasText at type ⊢
    rw [type]
    simp
  | interact l e prev est psaid keys t sigs before type ident sn fields digest last prior chained latest own threshold signed =>
    refine .inr ⟨l, e, prev, psaid, rfl, before, ?_, ident, byContent_self digest (ho e (by simp)), last, prior, chained⟩
    unfold HasText at type ⊢
    rw [type]
    simp

theorem agree : ∀ (n : Nat) (log log' : List Entry), log.length ≤ n → ValidLog H C chk fl pre log → ValidLog H C chk fl pre log' →
    (∀ e ∈ log ++ log', Ordinary e.sad) → ∀ e e' q, log.getLast? = some e → log'.getLast? = some e' →
    Sadder.said chk e.sad = .ok q → Sadder.said chk e'.sad = .ok q → ¬ Collision H (str% "E") (LogText log) (LogText log') → List.Forall₂ SameEvent log log' := by
  intro n
  induction n with
  | zero =>
    intro log log' hl _ _ _ e e' q he
    have : log = [] := List.length_eq_zero_iff.mp (by omega)
    rw [this] at he
    simp at he
  | succ n ih =>
    intro log log' hl h h' ho e e' q he he' hq hq' hc
    rcases ValidLog.last h (fun x hx => ho x (List.mem_append_left _ hx)) with
      ⟨x, rfl, ht, hi, hb⟩ | ⟨l, x, prev, u, rfl, hv, ht, hi, hb, hp, hu, hpu⟩ <;>
    rcases ValidLog.last h' (fun x hx => ho x (List.mem_append_right _ hx)) with
      ⟨x', rfl, ht', hi', hb'⟩ | ⟨l', x', prev', u', rfl, hv', ht', hi', hb', hp', hu', hpu'⟩
    · simp only [List.getLast?_singleton, Option.some.injEq] at he he'
      subst he he'
      refine .cons ?_ .nil
      have hs := (same_content hb hb' hq hq').resolve_left fun k => hc (k.mono (fun _ k => ⟨_, by simp, k⟩) fun _ k => ⟨_, by simp, k⟩)
      intro k h1 h2
      by_cases hk : k = str% "i"
      · subst hk
        exact hi.trans hi'.symm
      · exact hs k (by simp [h1, h2, hk]) (by simp [h1, h2, hk])
    · simp only [List.getLast?_singleton, List.getLast?_concat, Option.some.injEq] at he he'
      subst he he'
      have hs := (same_content hb hb' hq hq').resolve_left fun k => hc (k.mono (fun _ k => ⟨_, by simp, k⟩) fun _ k => ⟨_, by simp, k⟩)
      refine absurd ?_ ht'
      unfold HasText at ht ⊢
      rw [← hs _ (by decide) (by decide)]
      exact ht
    · simp only [List.getLast?_singleton, List.getLast?_concat, Option.some.injEq] at he he'
      subst he he'
      have hs := (same_content hb hb' hq hq').resolve_left fun k => hc (k.mono (fun _ k => ⟨_, by simp, k⟩) fun _ k => ⟨_, by simp, k⟩)
      refine absurd ?_ ht
      unfold HasText at ht' ⊢
      rw [hs _ (by decide) (by decide)]
      exact ht'
    · simp only [List.getLast?_concat, Option.some.injEq] at he he'
      subst he he'
      have hs := (same_content hb hb' hq hq').resolve_left fun k => hc (k.mono (fun _ k => ⟨_, by simp, k⟩) fun _ k => ⟨_, by simp, k⟩)
      have e1 : u = u' := by
        unfold HasText at hpu hpu'
        rw [hs _ (by decide) (by decide), hpu'] at hpu
        simpa using hpu.symm
      subst e1
      refine List.rel_append (ih l l' (by simpa using hl) hv hv' ?_ prev prev' u hp hp' hu hu' fun k => hc (k.mono (fun _ ⟨y, h1, h2⟩ => ⟨y, by simp [h1], h2⟩) fun _ ⟨y, h1, h2⟩ => ⟨y, by simp [h1], h2⟩)) (.cons ?_ .nil)
      · intro y hy
        rcases List.mem_append.mp hy with hy | hy
        · exact ho y (by simp [hy])
        · exact ho y (by simp [hy])
      · exact fun k h1 _ => hs k (by simpa using h1) (by simpa using h1)

end

end Keride
