/-
Property C46: paths into documents (pathing/pather.rs).
-/
import Verif.Lemmas.Pather
import Verif.Lemmas.Sadder

namespace Keride.Props

open Spec Matter

/-- The largest path text. -/
def maxPath : Nat := 4 * (64 ^ 4 - 1)

/-- C46, partial: a path of up to `maxPath` characters reads back as its components, also through its text and binary
forms, when no component is empty or has a `-`; numbers read back as their decimal texts. Missing: other components,
see `C46_path_false`. -/
theorem C46_path_partial (chk : Bool) (vs : List Value) (ps : List Str) (h : List.Forall₂ Names vs ps) (hc : ∀ p ∈ ps, IsComponent p)
    (hl : pathSize ps ≤ maxPath) :
    ∃ m, Pather.newWithPath (.arr vs) = .ok m ∧ Pather.path m = .ok ps ∧
      (∃ s, qb64 chk m = .ok s ∧ Pather.newWithQb64 s = .ok m) ∧ (∃ b, qb2 m = .ok b ∧ Pather.newWithQb2 b = .ok m) := by
  obtain ⟨m, h1, -, -, -, h2, h3, h4⟩ := Pather.newWithPath_ok chk h hc hl
  exact ⟨m, h1, h2, h3, h4⟩

/-- C46: a component outside the Base64 alphabet, or that is neither a text nor an integer, is an error. -/
theorem C46_reject (vs : List Value) (v : Value) (hv : v ∈ vs)
    (hbad : (∃ s c, v = .str s ∧ c ∈ s ∧ c ∉ base64url) ∨ v = .null ∨ (∃ b, v = .bool b) ∨ (∃ l, v = .arr l) ∨ (∃ o, v = .obj o)) :
    (Pather.newWithPath (.arr vs)).isErr = true := by
  rw [Pather.newWithPath_eq]
  unfold Pather.bextify
  rw [show (Value.arr vs).toVec = .ok vs from rfl, Res.ok_bind]
  have : (Res.mapList (fun e => Pather.component e >>= fun p => if reB64 p = false then .err .value else .ok p) vs).isErr = true := by
    have hnp : ∀ e ∈ vs, (Pather.component e >>= fun p => if reB64 p = false then (.err .value : Res Str) else .ok p) ≠ .panic := by
      intro e _
      unfold Pather.component
      cases e <;> dsimp only
      case str s => rw [Res.ok_bind]; split <;> simp
      case int i => rw [Res.ok_bind]; split <;> simp
      all_goals simp
    have hbad' : (Pather.component v >>= fun p => if reB64 p = false then (.err .value : Res Str) else .ok p).isErr = true := by
      rcases hbad with ⟨s, c, rfl, h1, h2⟩ | rfl | ⟨b, rfl⟩ | ⟨l, rfl⟩ | ⟨o, rfl⟩
      · have : reB64 s = false := by
          rw [← Bool.not_eq_true, reB64_iff]
          exact fun h => h2 (h c h1)
        change (if reB64 s = false then (.err .value : Res Str) else .ok s).isErr = true
        rw [if_pos this]
        rfl
      all_goals rfl
    cases hm : Res.mapList (fun e => Pather.component e >>= fun p => if reB64 p = false then .err .value else .ok p) vs with
    | err e => rfl
    | ok r =>
      have hf := Res.mapList_ok.mp hm
      obtain ⟨i, hi, rfl⟩ := List.mem_iff_getElem.mp hv
      have hl := hf.length_eq
      have := List.Forall₂.get hf (i := i) hi (by omega)
      simp only [List.get_eq_getElem] at this
      rw [this] at hbad'
      cases hbad'
    | panic =>
      obtain ⟨a, ha, hp⟩ := Res.mapList_panic hm
      exact absurd hp (hnp a ha)
  obtain ⟨e, he⟩ := Res.isErr_iff.mp this
  rw [he]
  rfl

/-- C46 is false for components that are empty, contain a `-` or are negative numbers: they read back as others. -/
theorem C46_path_false :
    (∃ m, Pather.newWithPath (.arr [.str (str% "a-b")]) = .ok m ∧ Pather.path m = .ok [str% "a", str% "b"]) ∧
    (∃ m, Pather.newWithPath (.arr [.str [], .str (str% "a")]) = .ok m ∧ Pather.path m = .ok []) ∧
    (∃ m, Pather.newWithPath (.arr [.str (str% "a"), .int (-1)]) = .ok m ∧ Pather.path m = .ok [str% "a", [], str% "1"]) := by
  exact ⟨⟨⟨str% "4A", 1, [249, 175, 155]⟩, by decide +kernel, by decide +kernel⟩, ⟨⟨str% "4A", 1, [3, 239, 154]⟩, by decide +kernel, by decide +kernel⟩,
    ⟨⟨str% "6A", 2, [62, 107, 239, 181]⟩, by decide +kernel, by decide +kernel⟩⟩

/-- C46, partial: `resolve` finds exactly what the path leads to, and never panics. A number is always the position of
an item, even in an object. Missing: names that are numbers, see `C46_resolve_false`. -/
theorem C46_resolve_partial (vs : List Value) (ps : List Str) (h : List.Forall₂ Names vs ps) (hc : ∀ p ∈ ps, IsComponent p) (hl : pathSize ps ≤ maxPath) (m : M)
    (hm : Pather.newWithPath (.arr vs) = .ok m) (sad : Value) :
    (∀ v, Pather.resolve m sad = .ok v ↔ Leads ps sad v) ∧ Pather.resolve m sad ≠ .panic := by
  obtain ⟨m', h1, -, -, -, h2, -⟩ := Pather.newWithPath_ok true h hc hl
  rw [hm] at h1
  cases h1
  unfold Pather.resolve
  rw [h2, Res.ok_bind]
  refine ⟨fun v => Pather.resolveAt_iff (fun p hp => ⟨(hc p hp).1, fun hplus => ?_⟩) sad v, Pather.resolveAt_ne_panic _ _⟩
  exact absurd ((hc p hp).2.1 _ hplus) (by decide)

/-- C46: what `resolve` finds with a path however it came about, read from a message or given as text: a component that is
empty stops at the object it stands at. -/
theorem C46_resolve_read (m : M) (ps : List Str) (h : Pather.path m = .ok ps) (sad : Value) :
    (∀ v, Pather.resolve m sad = .ok v ↔ Resolves ps sad v) ∧ Pather.resolve m sad ≠ .panic := by
  unfold Pather.resolve
  rw [h, Res.ok_bind]
  exact ⟨Pather.resolveAt_resolves (Pather.path_plus h) sad, Pather.resolveAt_ne_panic _ _⟩

/-- The path `-a--b` is read, and stops at the object that `a` leads to: the hypothesis above is met with an empty
component. -/
example : ∃ m, Pather.newWithBext (str% "-a--b") = .ok m ∧ Pather.path m = .ok [str% "a", [], str% "b"] ∧
    Resolves [str% "a", [], str% "b"] (.obj [(str% "a", .obj [(str% "c", .null)])]) (.obj [(str% "c", .null)]) := by
  refine ⟨⟨str% "6A", 2, [62, 107, 239, 155]⟩, by decide +kernel, by decide +kernel, ?_⟩
  refine .stops (ps := [str% "a"]) (by decide) (.name (fun i hi => ?_) rfl (.here _))
  exact absurd (hi.2.1 'a' (by decide)) (by decide)

/-- C46: the text that a path picks out of a document for signing. A SAID is given as it stands, and no other text is given.
An object or a list is given as its JSON. Anything else is an error. -/
theorem C46_tail (m : M) (doc : Sad) (v : Value) (h : Pather.resolve m doc.ked = .ok v) :
    (∀ s, v = .str s → ∀ t, Pather.tail m doc = .ok t ↔ t = s ∧ ∃ d, Matter.newWithQb64 s = .ok d ∧ d.code ∈ digestCodes) ∧
    (((∃ o, v = .obj o) ∨ ∃ l, v = .arr l) → Pather.tail m doc = .ok v.toJson) ∧
    ((v = .null ∨ (∃ b, v = .bool b) ∨ (∃ i, v = .int i) ∨ ∃ f, v = .float f) → (Pather.tail m doc).isErr = true) := by
  unfold Pather.tail
  rw [h, Res.ok_bind]
  refine ⟨?_, ?_, ?_⟩
  · rintro s rfl t
    dsimp only
    constructor
    · intro ht
      obtain ⟨d, hd, ht⟩ := Res.bind_eq_ok.mp ht
      cases ht
      exact ⟨rfl, d, saiderOf_ok hd⟩
    · rintro ⟨rfl, d, hd, hc⟩
      rw [saiderOf_of hd hc]
      rfl
  · rintro (⟨o, rfl⟩ | ⟨l, rfl⟩) <;> rfl
  · rintro (rfl | ⟨b, rfl⟩ | ⟨i, rfl⟩ | ⟨f, rfl⟩) <;> rfl

/-- A text that is given, and one that is refused. -/
example : (∃ d, Matter.newWithQb64 (str% "EAAAAAAAAAAAAAAAAAAAAAAAAAAAAAAAAAAAAAAAAAAA") = .ok d ∧ d.code ∈ digestCodes) ∧
    ¬ ∃ d, Matter.newWithQb64 (str% "DAAAAAAAAAAAAAAAAAAAAAAAAAAAAAAAAAAAAAAAAAAA") = .ok d ∧ d.code ∈ digestCodes := by
  refine ⟨⟨⟨str% "E", 0, List.replicate 32 0⟩, by decide +kernel, by decide⟩, ?_⟩
  rintro ⟨d, hd, hc⟩
  have : Matter.newWithQb64 (str% "DAAAAAAAAAAAAAAAAAAAAAAAAAAAAAAAAAAAAAAAAAAA") = .ok ⟨str% "D", 0, List.replicate 32 0⟩ := by decide +kernel
  rw [this] at hd
  cases hd
  exact absurd hc (by decide)

/-- C46: two results of a path are the same: `Leads` is a function of the path and the document. -/
theorem C46_resolve_unique (ps : List Str) (sad v w : Value) (hv : Leads ps sad v) (hw : Leads ps sad w) : v = w := by
  have idx : ∀ {s : Str} {i j : Nat}, IsIndex s i → IsIndex s j → i = j := fun h1 h2 => h1.2.2.1.symm.trans h2.2.2.1
  induction hv with
  | here => cases hw; rfl
  | item h1 h2 _ ih =>
    cases hw with
    | item k1 k2 k3 =>
      cases idx h1 k1
      rw [h2] at k2; cases k2
      exact ih k3
  | nth h1 h2 _ ih =>
    cases hw with
    | nth k1 k2 k3 =>
      cases idx h1 k1
      rw [h2] at k2; cases k2
      exact ih k3
    | name k1 _ _ => exact absurd h1 (k1 _)
  | name h1 h2 _ ih =>
    cases hw with
    | nth k1 k2 k3 => exact absurd k1 (h1 _)
    | name k1 k2 k3 =>
      rw [h2] at k2; cases k2
      exact ih k3

/-- C46: a path of names none of which is a number leads to the nested field. -/
theorem C46_resolve_names (o : List (Str × Value)) (s : Str) (ps : List Str) (v w : Value) (hs : ∃ c ∈ s, c ∉ str% "0123456789")
    (hf : field s (.obj o) = some v) (h : Leads ps v w) : Leads (s :: ps) (.obj o) w := by
  obtain ⟨c, h1, h2⟩ := hs
  exact .name (fun i hi => h2 (hi.2.1 c h1)) hf h

/-- C46 is false: in an object whose field names are numbers, the path of a name leads to another field. -/
theorem C46_resolve_false : ∃ m, Pather.newWithPath (.arr [.str (str% "0")]) = .ok m ∧
    Pather.path m = .ok [str% "0"] ∧
    field (str% "0") (.obj [(str% "1", .str (str% "x")), (str% "0", .str (str% "y"))]) = some (.str (str% "y")) ∧
    Pather.resolve m (.obj [(str% "1", .str (str% "x")), (str% "0", .str (str% "y"))]) = .ok (.str (str% "x")) := by
  refine ⟨⟨str% "5A", 1, [15, 180]⟩, by decide +kernel, by decide +kernel, rfl, ?_⟩
  unfold Pather.resolve
  rw [show Pather.path ⟨str% "5A", 1, [15, 180]⟩ = .ok [str% "0"] by decide +kernel]
  rfl

/-- C46: `root` joins the two paths. -/
theorem C46_root (rs ps : List Str) (hr : ∀ p ∈ rs, IsComponent p) (hp : ∀ p ∈ ps, IsComponent p) (hl : pathSize (rs ++ ps) ≤ maxPath) (r m : M)
    (h1 : Pather.newWithPath (.arr (rs.map .str)) = .ok r) (h2 : Pather.newWithPath (.arr (ps.map .str)) = .ok m) :
    ∃ j, Pather.root m r = .ok j ∧ Pather.newWithPath (.arr ((rs ++ ps).map .str)) = .ok j ∧ Pather.path j = .ok (rs ++ ps) ∧
      (∀ sad u v, Leads rs sad u → Leads ps u v → Pather.resolve j sad = .ok v) := by
  have hlr : pathSize rs ≤ maxPath := by unfold pathSize at *; simp only [List.map_append, List.sum_append] at hl; omega
  have hlp : pathSize ps ≤ maxPath := by unfold pathSize at *; simp only [List.map_append, List.sum_append] at hl; omega
  obtain ⟨r', k1, -, -, -, k2, -⟩ := Pather.newWithPath_ok true (Pather.names_text rs) hr hlr
  obtain ⟨m', l1, -, -, -, l2, -⟩ := Pather.newWithPath_ok true (Pather.names_text ps) hp hlp
  have hc : ∀ p ∈ rs ++ ps, IsComponent p := fun p h => (List.mem_append.mp h).elim (hr p) (hp p)
  obtain ⟨j, j1, -, -, -, j2, -⟩ := Pather.newWithPath_ok true (Pather.names_text (rs ++ ps)) hc hl
  rw [h1] at k1; cases k1
  rw [h2] at l1; cases l1
  refine ⟨j, ?_, j1, j2, fun sad u v hu hv => ?_⟩
  · unfold Pather.root
    rw [k2, Res.ok_bind, l2, Res.ok_bind]
    exact j1
  · refine ((C46_resolve_partial _ _ (Pather.names_text _) hc hl j j1 sad).1 v).mpr ?_
    clear j1 j2 k2 l2 h1 h2 hc hl hlr hlp hr hp
    induction hu with
    | here => exact hv
    | item h1 h2 _ ih => exact .item h1 h2 (ih hv)
    | nth h1 h2 _ ih => exact .nth h1 h2 (ih hv)
    | name h1 h2 _ ih => exact .name h1 h2 (ih hv)

/-- C46, partial: `strip` undoes `root` when the components of the root are all different and do not occur in the
path. Missing: other paths, see `C46_strip_false`. -/
theorem C46_strip_partial (rs ps : List Str) (hr : ∀ p ∈ rs, IsComponent p) (hp : ∀ p ∈ ps, IsComponent p) (hl : pathSize (rs ++ ps) ≤ maxPath) (r m j : M)
    (h1 : Pather.newWithPath (.arr (rs.map .str)) = .ok r) (h2 : Pather.newWithPath (.arr (ps.map .str)) = .ok m)
    (hd : rs.Nodup) (hdis : ∀ p ∈ rs, p ∉ ps) (hj : Pather.root m r = .ok j) : Pather.strip j r = .ok m := by
  obtain ⟨j', k1, -, k2, -⟩ := C46_root rs ps hr hp hl r m h1 h2
  rw [hj] at k1; cases k1
  have hlr : pathSize rs ≤ maxPath := by unfold pathSize at *; simp only [List.map_append, List.sum_append] at hl; omega
  obtain ⟨r', l1, -, -, -, l2, -⟩ := Pather.newWithPath_ok true (Pather.names_text rs) hr hlr
  rw [h1] at l1; cases l1
  unfold Pather.strip
  rw [l2, Res.ok_bind, k2, Res.ok_bind, if_neg (by simp), Pather.stripLoop_front rs _ ps hd hdis [] (by simp) (by simp), Res.ok_bind]
  exact h2

/-- C46: stripping a longer root leaves the path as it is. -/
theorem C46_strip_longer (rs ps : List Str) (r m : M) (h1 : Pather.path r = .ok rs) (h2 : Pather.path m = .ok ps) (hlt : ps.length < rs.length) :
    Pather.strip m r = .ok m := by
  unfold Pather.strip
  rw [h1, Res.ok_bind, h2, Res.ok_bind, if_pos hlt]

/-- C46 is false: with a component of the root in the path, `strip` gives another path than the one `root` was given,
or panics; with a root that is not the start of the path it panics, or removes components elsewhere. -/
theorem C46_strip_false :
    (∃ r m j, Pather.newWithPath (.arr [.str (str% "a")]) = .ok r ∧ Pather.newWithPath (.arr [.str (str% "b"), .str (str% "a")]) = .ok m ∧
      Pather.root m r = .ok j ∧ Pather.strip j r ≠ .ok m ∧ Pather.strip j r = Pather.newWithPath (.arr [.str (str% "a"), .str (str% "b")])) ∧
    (∃ r m j, Pather.newWithPath (.arr [.str (str% "a"), .str (str% "b")]) = .ok r ∧ Pather.newWithPath (.arr [.str (str% "a")]) = .ok m ∧
      Pather.root m r = .ok j ∧ Pather.strip j r = .panic) ∧
    (∃ r m, Pather.newWithPath (.arr [.str (str% "b")]) = .ok r ∧ Pather.newWithPath (.arr [.str (str% "a")]) = .ok m ∧ Pather.strip m r = .panic) ∧
    (∃ r m, Pather.newWithPath (.arr [.str (str% "b")]) = .ok r ∧ Pather.newWithPath (.arr [.str (str% "a"), .str (str% "b")]) = .ok m ∧
      Pather.strip m r = Pather.newWithPath (.arr [.str (str% "a")])) := by
  exact ⟨⟨⟨str% "5A", 1, [15, 154]⟩, ⟨str% "4A", 1, [249, 191, 154]⟩, ⟨str% "5A", 2, [15, 154, 249, 191, 154]⟩, by decide +kernel, by decide +kernel, by decide +kernel, by decide +kernel, by decide +kernel⟩,
    ⟨⟨str% "4A", 1, [249, 175, 155]⟩, ⟨str% "5A", 1, [15, 154]⟩, ⟨str% "5A", 2, [15, 154, 249, 191, 154]⟩, by decide +kernel, by decide +kernel, by decide +kernel, by decide +kernel⟩,
    ⟨⟨str% "5A", 1, [15, 155]⟩, ⟨str% "5A", 1, [15, 154]⟩, by decide +kernel, by decide +kernel, by decide +kernel⟩,
    ⟨⟨str% "5A", 1, [15, 155]⟩, ⟨str% "4A", 1, [249, 175, 155]⟩, by decide +kernel, by decide +kernel, by decide +kernel⟩⟩

/-- C46: a path starts with every path made of its first components. -/
theorem C46_starts (rs ps : List Str) (hr : ∀ p ∈ rs, IsComponent p) (hp : ∀ p ∈ ps, IsComponent p) (hl : pathSize (rs ++ ps) ≤ maxPath) (r j : M)
    (h1 : Pather.newWithPath (.arr (rs.map .str)) = .ok r) (h2 : Pather.newWithPath (.arr ((rs ++ ps).map .str)) = .ok j) :
    Pather.startsWith j r = .ok true := by
  have hlr : pathSize rs ≤ maxPath := by unfold pathSize at *; simp only [List.map_append, List.sum_append] at hl; omega
  have hc : ∀ p ∈ rs ++ ps, IsComponent p := fun p h => (List.mem_append.mp h).elim (hr p) (hp p)
  obtain ⟨r', k1, -, -, k2, -⟩ := Pather.newWithPath_ok true (Pather.names_text rs) hr hlr
  obtain ⟨j', j1, -, -, j2, -⟩ := Pather.newWithPath_ok true (Pather.names_text (rs ++ ps)) hc hl
  rw [h1] at k1; cases k1
  rw [h2] at j1; cases j1
  have key : ∀ a b : List Str, joinWith '-' a <+: joinWith '-' (a ++ b) := by
    intro a
    induction a with
    | nil => intro b; rw [joinWith]; exact List.nil_prefix
    | cons x a ih =>
      intro b
      cases a with
      | nil =>
        cases b with
        | nil => exact List.prefix_refl _
        | cons y b =>
          rw [List.cons_append, List.nil_append, joinWith, joinWith]
          · exact List.prefix_append _ _
          · simp
      | cons y a =>
        have := ih b
        rw [show joinWith '-' (x :: y :: a) = x ++ '-' :: joinWith '-' (y :: a) by rw [joinWith]; simp,
          show joinWith '-' (x :: y :: a ++ b) = x ++ '-' :: joinWith '-' (y :: a ++ b) by
            rw [List.cons_append, List.cons_append, joinWith]; simp,
          List.prefix_append_right_inj, List.cons_prefix_cons]
        exact ⟨rfl, this⟩
  unfold Pather.startsWith
  rw [j2, Res.ok_bind, k2, Res.ok_bind]
  congr 1
  rw [List.isPrefixOf_iff_prefix, List.cons_prefix_cons]
  exact ⟨rfl, key rs ps⟩

/-- `starts_with` compares texts: `-ab` starts with `-a`, though its component is another. -/
theorem C46_starts_false : ∃ r m, Pather.newWithPath (.arr [.str (str% "a")]) = .ok r ∧ Pather.newWithPath (.arr [.str (str% "ab")]) = .ok m ∧
    Pather.startsWith m r = .ok true := by
  exact ⟨⟨str% "5A", 1, [15, 154]⟩, ⟨str% "4A", 1, [3, 230, 155]⟩, by decide +kernel, by decide +kernel, by decide +kernel⟩

/-- A path with a number, and what it leads to: the hypotheses above are met. -/
example : List.Forall₂ Names [.str (str% "a"), .int 12] [str% "a", str% "12"] ∧ (∀ p ∈ [str% "a", str% "12"], IsComponent p) ∧
    pathSize [str% "a", str% "12"] ≤ maxPath ∧ [str% "a", str% "12"].Nodup ∧
    Leads [str% "a", str% "1"] (.obj [(str% "b", .null), (str% "a", .arr [.null, .int 7])]) (.int 7) := by
  refine ⟨.cons (.text _) (.cons (.number 12) .nil), ?_, by decide, by decide, ?_⟩
  · intro p hp
    have : ∀ p ∈ [str% "a", str% "12"], p ≠ [] ∧ (∀ c ∈ p, c ∈ base64url) ∧ '-' ∉ p := by decide
    exact this p hp
  · refine .name (fun i hi => ?_) rfl (.item (i := 1) ⟨by decide, by decide, by decide, by decide⟩ rfl (.here _))
    exact absurd (hi.2.1 'a' (by decide)) (by decide)

end Keride.Props
