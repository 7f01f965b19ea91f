/-
`sniff` on what `sizeify` wrote.
-/
import Verif.Lemmas.Sizeify

namespace Keride

open Spec

theorem utf8Go_append (s : Str) (b : Bytes) : utf8Go 0 0 0 (toUtf8 s ++ b) = (utf8Go 0 0 0 b).map (s ++ ·) := by
  induction s with
  | nil => cases h : utf8Go 0 0 0 b <;> simp [toUtf8, h]
  | cons c s ih =>
    rw [toUtf8, List.append_assoc, utf8Go_char, ih, Option.map_map]
    rfl

theorem fromUtf8_append (s : Str) (b : Bytes) : fromUtf8 (toUtf8 s ++ b) = fromUtf8 b >>= fun t => .ok (s ++ t) := by
  unfold fromUtf8
  rw [utf8Go_append]
  cases utf8Go 0 0 0 b <;> rfl

theorem findVs_append {s p q : Str} (h : findVs s = some (p, q)) (t : Str) : findVs (s ++ t) = some (p, q ++ t) := by
  obtain ⟨h1, h2, h3⟩ := findVs_some.mp h
  have hq := vsAt_len h2
  refine findVs_some.mpr ⟨by rw [h1, List.append_assoc], ?_, ?_⟩
  · rw [vsAt_congr (t := q)]
    · exact h2
    · rw [List.take_append_of_le_length hq]
  · intro i hi
    rw [vsAt_congr (t := s.drop i)]
    · exact h3 i hi
    · have hl : s.length = p.length + q.length := by rw [h1, List.length_append]
      rw [List.drop_append_of_le_length (by omega), List.take_append_of_le_length (by rw [List.length_drop]; omega)]

theorem sniff_text {ident kind p q : Str} {v : Version} {size : Nat} {b : Bytes} {s : Str} (hi : ident ∈ idents) (hk : kind ∈ serials)
    (hf : VersionFits v size) (hb : 29 ≤ b.length) (hs : fromUtf8 b = .ok s) (hv : findVs s = some (p, versionText ident v kind size ++ q))
    (hp : p.len ≤ 12) : sniff b = .ok ⟨ident, kind, v, size⟩ := by
  obtain ⟨h1, h2, h3, h4, h5⟩ := versionText_split ident kind v size hi hk hf
  have hl := versionText_len ident v kind size (idents_upper _ hi).1 (serials_upper _ hk).1
  unfold sniff
  rw [if_neg (by omega), hs, Res.ok_bind, hv]
  dsimp only
  rw [if_neg (by omega), List.take_left' hl, h1, h2, h3, h4, h5]
  simp only [Res.ok_bind]
  rw [if_neg (by simp [hk])]

theorem sizeOut_find {o : List (Str × Value)} {ident p q : Str} {size : Nat} (h : Sizable o ident size p q) :
    findVs (p ++ (newVs o ident ++ q.drop 17)) = some (p, newVs o ident ++ q.drop 17) := by
  obtain ⟨e1, e2, e3⟩ := findVs_some.mp h.2.2.2.1
  have hq := vsAt_len e2
  obtain ⟨p', q1, q2, f1, f2, f3, f4⟩ := findVs_replace (a := p) (b := q.drop 17) (w := q.take 17) (w' := newVs o ident)
    (by rw [vsAt_take]; exact e2) (newVs_vsAt o h.1) (by rw [List.length_take]; omega) (newVs_len o h.1)
  rw [List.take_append_drop, ← e1, h.2.2.2.1] at f1
  cases f1
  obtain ⟨g1, -⟩ := findVs_some.mp f2
  rw [f2, List.append_cancel_left g1]

theorem sniff_sizeify {o : List (Str × Value)} {ident p q : Str} {size : Nat} (h : Sizable o ident size p q) (rest : Bytes) :
    sniff ((sizeOut o ident p q).raw ++ rest) =
      if 29 ≤ ((sizeOut o ident p q).raw ++ rest).length then
        fromUtf8 rest >>= fun _ => .ok ⟨ident, str% "JSON", currentVersion, (sizeOut o ident p q).raw.length % 2 ^ 32⟩
      else .err .value := by
  by_cases hl : 29 ≤ ((sizeOut o ident p q).raw ++ rest).length
  · rw [if_pos hl]
    cases hr : fromUtf8 rest with
    | panic => exact absurd hr (fromUtf8_ne_panic rest)
    | err e =>
      unfold sniff
      rw [if_neg (by omega)]
      unfold sizeOut
      rw [fromUtf8_append, hr]
      rfl
    | ok t =>
      rw [Res.ok_bind, sizeOut_len h]
      refine sniff_text (p := p) (q := q.drop 17 ++ t) (s := p ++ (newVs o ident ++ q.drop 17) ++ t) h.1 json_serial (fits_current h.2.2.2.2.2) hl ?_ ?_ h.2.2.2.2.1
      · unfold sizeOut
        rw [fromUtf8_append, hr]
        rfl
      · rw [findVs_append (sizeOut_find h) t, List.append_assoc]
        rfl
  · rw [if_neg hl]
    unfold sniff
    rw [if_pos (by omega)]

/-- The leftmost version string of a document that starts with its version string. -/
theorem find_first {o : List (Str × Value)} {w : Str} (hf : o.head?.map Prod.fst = some (str% "v"))
    (hw : Value.find (str% "v") o = some (.str w)) (hv : vsAt w = true) (hl : w.length = 17) :
    ∃ B, (Value.obj o).toJson = str% "{\"v\":\"" ++ (w ++ B) ∧
      findVs (Value.obj o).toJson = some (str% "{\"v\":\"", w ++ B) := by
  have hk : Value.hasKey (str% "v") o = true := by unfold Value.hasKey; rw [hw]; rfl
  obtain ⟨A, B, hAB, hA⟩ := toJson_hole hk
  have e1 := hAB w
  rw [insert_find_self hw, vsAt_esc hv hl, hA hf] at e1
  have e2 : '{' :: (jsonStr (str% "v") ++ [':', '"']) = str% "{\"v\":\"" := by decide
  rw [e2] at e1
  refine ⟨B, e1, ?_⟩
  obtain ⟨p, q, q', f1, -, -, f4⟩ := findVs_replace (a := str% "{\"v\":\"") (b := B) hv hv hl hl
  rw [e1, f1]
  obtain ⟨g1, -⟩ := findVs_some.mp f1
  have hp : (str% "{\"v\":\"").length = p.length := by
    rcases f4 with f | f
    · exact f.symm
    · simp at f
  obtain ⟨g2, g3⟩ := List.append_inj g1 hp
  rw [g2, g3]

/-- What `sizeify` needs of a document that starts with its version string. -/
theorem sizable_first {o : List (Str × Value)} {ident : Str} {size : Nat} (hi : ident ∈ idents) (hs : size < 2 ^ 24)
    (hf : o.head?.map Prod.fst = some (str% "v"))
    (hw : Value.find (str% "v") o = some (.str (versionText ident currentVersion (str% "JSON") size)))
    (hn : (Value.obj o).toJson.len % 2 ^ 32 < 2 ^ 24) : ∃ q, Sizable o ident size (str% "{\"v\":\"") q := by
  obtain ⟨B, h1, h2⟩ := find_first hf hw (versionText_vsAt hi json_serial _ _) (versionText_len _ _ _ _ (idents_upper _ hi).1 rfl)
  exact ⟨_, hi, hs, hw, h2, by decide, hn⟩

theorem mem_protocols {i : Str} : i ∈ protocols ↔ i ∈ idents := by
  unfold protocols idents; simp; tauto

theorem mem_serialisations {i : Str} : i ∈ serialisations ↔ i ∈ serials := Iff.rfl

theorem isUpper_mem {c : Char} : isUpper c = true ↔ c ∈ str% "ABCDEFGHIJKLMNOPQRSTUVWXYZ" := by
  constructor
  · intro h
    have key : ∀ n < 128, isUpper (Char.ofNat n) = true → Char.ofNat n ∈ str% "ABCDEFGHIJKLMNOPQRSTUVWXYZ" := by decide +kernel
    have hn : c.toNat < 128 := by have := of_decide_eq_true h; omega
    have := key c.toNat hn
    rw [Char.ofNat_toNat] at this
    exact this h
  · have key : ∀ c ∈ str% "ABCDEFGHIJKLMNOPQRSTUVWXYZ", isUpper c = true := by decide
    exact key c

theorem isHexLow_mem {c : Char} : isHexLow c = true ↔ c ∈ str% "0123456789abcdef" := by
  constructor
  · intro h
    have key : ∀ n < 128, isHexLow (Char.ofNat n) = true → Char.ofNat n ∈ str% "0123456789abcdef" := by decide +kernel
    have hn : c.toNat < 128 := by have := of_decide_eq_true h; omega
    have := key c.toNat hn
    rw [Char.ofNat_toNat] at this
    exact this h
  · have key : ∀ c ∈ str% "0123456789abcdef", isHexLow c = true := by decide
    exact key c

theorem versionLike_of {s : Str} {i : Nat} (hi : i ≤ s.length) (h : vsAt (s.drop i) = true) : VersionLikeAt s i := by
  obtain ⟨a, m, n, k, z, t, e, h1, h2, h3, h4, h5, h6, h7, h8⟩ := (vsAt_iff _).mp h
  refine ⟨s.take i, a, [m], [n], k, z, t, ?_, by rw [List.length_take]; omega, h1, rfl, rfl, h2, h3, ?_, ?_⟩
  · conv_lhs => rw [← List.take_append_drop i s, e]
    simp
  · intro c hc
    rw [← isUpper_mem]
    rcases List.mem_append.mp hc with hc | hc
    · exact h4 c hc
    · exact h7 c hc
  · intro c hc
    rw [← isHexLow_mem]
    simp only [List.mem_append, List.mem_singleton] at hc
    rcases hc with (rfl | rfl) | hc
    · exact h5
    · exact h6
    · exact h8 c hc

/-- With no other text like a version string, the bytes are the text of the document. -/
theorem sizeOut_unique {o : List (Str × Value)} {ident p q : Str} {size : Nat} (h : Sizable o ident size p q)
    (hu : ∀ i j, VersionLikeAt (Value.obj o).toJson i → VersionLikeAt (Value.obj o).toJson j → i = j) :
    (sizeOut o ident p q).raw = toUtf8 (sizeOut o ident p q).ked.toJson := by
  obtain ⟨A, B, q', e1, e2, -, f, h1, h2⟩ := h.hole
  obtain ⟨g1, g2, -⟩ := findVs_some.mp h.2.2.2.1
  have hv1 : vsAt (versionText ident currentVersion (str% "JSON") size) = true := versionText_vsAt h.1 json_serial _ _
  have hl1 : (versionText ident currentVersion (str% "JSON") size).length = 17 :=
    versionText_len _ _ _ _ (idents_upper _ h.1).1 rfl
  have hpl : p.length = A.length := by
    refine hu _ _ (versionLike_of ?_ ?_) (versionLike_of ?_ ?_)
    · rw [g1, List.length_append]; omega
    · rw [g1, List.drop_left' rfl]; exact g2
    · rw [e1, List.length_append]; omega
    · rw [e1, List.drop_left' rfl, vsAt_congr (t := versionText ident currentVersion (str% "JSON") size)]
      · exact hv1
      · rw [List.take_append_of_le_length (by omega)]
  rw [e1] at g1
  obtain ⟨g3, g4⟩ := List.append_inj g1 hpl.symm
  unfold sizeOut
  dsimp only
  rw [e2, ← g3, ← g4, List.drop_left' hl1]

end Keride
