/-
`sizeify` and `sniff`.
-/
import Verif.Lemmas.Common

namespace Keride

open Spec

/-- What `sizeify` needs of an object: its version string, the leftmost match in its text, and the size. -/
def Sizable (o : List (Str × Value)) (ident : Str) (size : Nat) (p q : Str) : Prop :=
  ident ∈ idents ∧ size < 2 ^ 24 ∧
    Value.find (str% "v") o = some (.str (versionText ident currentVersion (str% "JSON") size)) ∧
    findVs (Value.obj o).toJson = some (p, q) ∧ p.len ≤ 12 ∧ (Value.obj o).toJson.len % 2 ^ 32 < 2 ^ 24

/-- The version string `sizeify` writes. -/
def newVs (o : List (Str × Value)) (ident : Str) : Str :=
  versionText ident currentVersion (str% "JSON") ((Value.obj o).toJson.len % 2 ^ 32)

theorem hexFixed_mod (w n : Nat) : hexFixed w (n % 16 ^ w) = hexFixed w n := by
  induction w generalizing n with
  | zero => rfl
  | succ w ih =>
    have h1 : n % 16 ^ (w + 1) % 16 = n % 16 := Nat.mod_mod_of_dvd n ⟨16 ^ w, by rw [Nat.pow_succ, Nat.mul_comm]⟩
    have h2 : n % 16 ^ (w + 1) / 16 = n / 16 % 16 ^ w := by rw [Nat.pow_succ, Nat.mul_comm, Nat.mod_mul_right_div_self]
    rw [hexFixed, hexFixed, h1, h2, ih]

theorem newVs_size (o : List (Str × Value)) (ident : Str) :
    newVs o ident = versionText ident ⟨1, 0⟩ (str% "JSON") (toUtf8 (Value.obj o).toJson).length := by
  unfold newVs versionText
  rw [toUtf8_length, ← hexFixed_mod 6 (_ % 2 ^ 32), Nat.mod_mod_of_dvd _ (by decide), hexFixed_mod]
  rfl

/-- What `sizeify` returns. -/
def sizeOut (o : List (Str × Value)) (ident p q : Str) : Sizeified :=
  ⟨toUtf8 (p ++ (newVs o ident ++ q.drop 17)), ident, str% "JSON", .obj (Value.insert (str% "v") (.str (newVs o ident)) o),
    currentVersion⟩

theorem fits_current {n : Nat} (h : n < 2 ^ 24) : VersionFits currentVersion n :=
  ⟨by decide, by decide, h⟩

theorem json_serial : (str% "JSON") ∈ serials := by decide

theorem serial_json {k : Str} (h : k ∈ serials) : k = str% "JSON" := by
  unfold serials at h; simpa using h

theorem newVs_len (o : List (Str × Value)) {ident : Str} (h : ident ∈ idents) : (newVs o ident).length = 17 :=
  versionText_len _ _ _ _ (idents_upper _ h).1 rfl

theorem newVs_vsAt (o : List (Str × Value)) {ident : Str} (h : ident ∈ idents) : vsAt (newVs o ident) = true :=
  versionText_vsAt h json_serial _ _

theorem vs_byteLen {s : Str} (h : vsAt s = true) (hl : s.length = 17) : s.len = 17 := by
  have := vsAt_byteLen h
  rwa [List.take_of_length_le (by omega)] at this

theorem splice (p q : Str) (hq : vsAt q = true) :
    Bytes.sliceTo (toUtf8 (p ++ q)) p.len = .ok (toUtf8 p) ∧
    Bytes.sliceFrom (toUtf8 (p ++ q)) (p.len + 17) = .ok (toUtf8 (q.drop 17)) := by
  have hl : (toUtf8 p).length = p.len := toUtf8_length p
  have e : toUtf8 (p ++ q) = toUtf8 (p ++ q.take 17) ++ toUtf8 (q.drop 17) := by
    rw [← toUtf8_append, List.append_assoc, List.take_append_drop]
  have hl2 : (toUtf8 (p ++ q.take 17)).length = p.len + 17 := by
    rw [toUtf8_length, len_append, vsAt_byteLen hq]
  constructor
  · unfold Bytes.sliceTo
    rw [toUtf8_append, if_pos (by rw [List.length_append, hl]; omega), List.take_left' hl]
  · unfold Bytes.sliceFrom
    rw [e, if_pos (by rw [List.length_append, hl2]; omega), List.drop_left' hl2]

theorem length_le_len (s : Str) : s.length ≤ s.len := by
  induction s with
  | nil => exact Nat.le_refl _
  | cons c s ih =>
    have : 1 ≤ c.utf8Size := Char.utf8Size_pos c
    simp only [List.length_cons, Str.len]
    omega

theorem sizeify_ok {ked : Value} {kind : Option Str} {r : Sizeified} (h : sizeify ked kind = .ok r) :
    ∃ o ident size p q, ked = .obj o ∧ kind.getD (str% "JSON") = str% "JSON" ∧ Sizable o ident size p q ∧ r = sizeOut o ident p q := by
  unfold sizeify at h
  rw [Res.bind_eq_ok] at h
  obtain ⟨o, ho, h⟩ := h
  cases ked with
  | obj o' =>
    cases ho
    split at h
    · cases h
    · simp only [Res.bind_eq_ok] at h
      obtain ⟨v, hv, vs, hvs, info, hinfo, h⟩ := h
      have hfind : Value.find (str% "v") o = some (.str vs) := by
        cases v with
        | str s =>
          cases hvs
          unfold Value.index at hv
          cases hf : Value.find (str% "v") o with
          | none => simp [hf] at hv
          | some x => simp [hf] at hv; rw [hv]
        | _ => cases hvs
      obtain ⟨d1, d2, d3, d4⟩ := deversify_ok hinfo
      split at h
      · cases h
      · rename_i hver
        rw [not_not] at hver
        split at h
        · cases h
        · rename_i hk
          simp only [Bool.not_eq_true', List.contains_eq_mem, decide_eq_false_iff_not, not_not] at hk
          have hkj := serial_json hk
          rw [hkj] at h
          have hd : dumps (.obj o) (some (str% "JSON")) = .ok (toUtf8 (Value.obj o).toJson) := rfl
          rw [hd] at h
          simp only [Res.ok_bind, fromUtf8_toUtf8] at h
          generalize htext : (Value.obj o).toJson = text at h
          cases hfv : findVs text with
          | none => rw [hfv] at h; cases h
          | some pq =>
            obtain ⟨p, q⟩ := pq
            rw [hfv] at h
            dsimp only at h
            split at h
            · cases h
            · rename_i h12
              obtain ⟨e1, e2, -⟩ := findVs_some.mp hfv
              obtain ⟨s1, s2⟩ := splice p q e2
              have hlen : text.len = p.len + 17 + Str.len (q.drop 17) := by
                conv_lhs => rw [e1, ← List.take_append_drop 17 q]
                rw [len_append, len_append, vsAt_byteLen e2]
                omega
              obtain ⟨s, hs⟩ : ∃ s, versify (some info.ident) (some currentVersion) (some (str% "JSON")) (some (text.len % 2 ^ 32)) = .ok s :=
                ⟨_, versify_ok d1 json_serial _ _⟩
              rw [e1, s1, Res.ok_bind, s2, Res.ok_bind, ← e1, toUtf8_length, hver, hs, Res.ok_bind] at h
              split at h
              · cases h
              · rename_i hne
                rw [not_not, List.length_append, List.length_append, toUtf8_length, toUtf8_length, toUtf8_length] at hne
                have hs17 : s.len = 17 := by omega
                have hfit : VersionFits currentVersion (text.len % 2 ^ 32) := by
                  by_contra hc
                  have := versify_long d1 json_serial hc hs
                  have := length_le_len s
                  omega
                rw [versify_text d1 json_serial hfit] at hs
                cases hs
                unfold Value.setIndex at h
                rw [Res.ok_bind] at h
                cases h
                refine ⟨o, info.ident, info.size, p, q, rfl, ?_, ⟨d1, d3.2.2, ?_, ?_, by omega, ?_⟩, ?_⟩
                · cases kind with
                  | none => rfl
                  | some k => exact hkj
                · rw [hfind, d4, hver, serial_json d2]
                · rw [htext, hfv]
                · rw [htext]; exact hfit.2.2
                · unfold sizeOut newVs
                  rw [htext, toUtf8_append, toUtf8_append, List.append_assoc]
  | _ => cases ho

theorem sizeify_of {o : List (Str × Value)} {ident p q : Str} {size : Nat} {kind : Option Str}
    (hk : kind.getD (str% "JSON") = str% "JSON") (h : Sizable o ident size p q) :
    sizeify (.obj o) kind = .ok (sizeOut o ident p q) := by
  obtain ⟨h1, h2, h3, h4, h5, h6⟩ := h
  have hkey : Value.hasKey (str% "v") o = true := by unfold Value.hasKey; rw [h3]; rfl
  have hi : Value.index (.obj o) (str% "v") = .ok (.str (versionText ident currentVersion (str% "JSON") size)) := by
    simp [Value.index, h3]
  unfold sizeify
  have hm : (Value.obj o).toMap = .ok o := rfl
  rw [hm, Res.ok_bind, hkey, hi]
  simp only [Bool.not_true, Bool.false_eq_true, if_false, Res.ok_bind, Value.toStr]
  rw [deversify_text h1 json_serial (fits_current h2)]
  simp only [Res.ok_bind, ne_eq, not_true_eq_false, if_false]
  rw [hk, if_neg (by decide)]
  have hd : dumps (.obj o) (some (str% "JSON")) = .ok (toUtf8 (Value.obj o).toJson) := rfl
  rw [hd]
  simp only [Res.ok_bind, fromUtf8_toUtf8]
  rw [h4]
  obtain ⟨e1, e2, -⟩ := findVs_some.mp h4
  obtain ⟨s1, s2⟩ := splice p q e2
  rw [← e1] at s1 s2
  have hlen : (Value.obj o).toJson.len = p.len + 17 + Str.len (q.drop 17) := by
    conv_lhs => rw [e1, ← List.take_append_drop 17 q]
    rw [len_append, len_append, vsAt_byteLen e2]
    omega
  dsimp only
  rw [if_neg (by omega), s1, Res.ok_bind, s2, Res.ok_bind, toUtf8_length, versify_text h1 json_serial (fits_current h6), Res.ok_bind,
    if_neg]
  · unfold sizeOut newVs Value.setIndex
    rw [toUtf8_append, toUtf8_append, List.append_assoc]
    rfl
  · rw [not_not, List.length_append, List.length_append, toUtf8_length, toUtf8_length, toUtf8_length]
    have := vs_byteLen (newVs_vsAt o h1) (newVs_len o h1)
    unfold newVs at this
    omega

theorem sizeify_ne_panic (ked : Value) (kind : Option Str) : sizeify ked kind ≠ .panic := by
  intro h
  unfold sizeify at h
  cases ked with
  | obj o =>
    have hm : (Value.obj o).toMap = .ok o := rfl
    rw [hm, Res.ok_bind] at h
    split at h
    · cases h
    · rename_i hkey
      simp only [Bool.not_eq_true', Bool.not_eq_false] at hkey
      unfold Value.hasKey at hkey
      obtain ⟨x, hx⟩ := Option.isSome_iff_exists.mp hkey
      have hi : Value.index (.obj o) (str% "v") = .ok x := by simp [Value.index, hx]
      rw [hi, Res.ok_bind] at h
      cases x with
      | str s =>
        have hs : (Value.str s).toStr = .ok s := rfl
        rw [hs, Res.ok_bind] at h
        cases hd : deversify s with
        | panic => exact deversify_ne_panic _ hd
        | err e => rw [hd] at h; cases h
        | ok info =>
          obtain ⟨d1, -⟩ := deversify_ok hd
          rw [hd, Res.ok_bind] at h
          split at h
          · cases h
          · dsimp only at h
            split at h
            · cases h
            · rename_i hk
              simp only [Bool.not_eq_true', List.contains_eq_mem, decide_eq_false_iff_not, not_not] at hk
              have hkj := serial_json hk
              rw [hkj] at h
              have hd : dumps (.obj o) (some (str% "JSON")) = .ok (toUtf8 (Value.obj o).toJson) := rfl
              rw [hd] at h
              simp only [Res.ok_bind, fromUtf8_toUtf8] at h
              generalize (Value.obj o).toJson = text at h
              cases hfv : findVs text with
              | none => rw [hfv] at h; cases h
              | some pq =>
                obtain ⟨p, q⟩ := pq
                rw [hfv] at h
                dsimp only at h
                split at h
                · cases h
                · obtain ⟨e1, e2, -⟩ := findVs_some.mp hfv
                  obtain ⟨s1, s2⟩ := splice p q e2
                  rw [e1, s1, Res.ok_bind, s2, Res.ok_bind, versify_ok d1 json_serial, Res.ok_bind] at h
                  split at h
                  · cases h
                  · cases h
      | _ => cases h
  | _ => cases h

/-! ## The result of `sizeify` -/

section

variable {o : List (Str × Value)} {ident p q : Str} {size : Nat}

theorem Sizable.key (h : Sizable o ident size p q) : Value.hasKey (str% "v") o = true := by
  unfold Value.hasKey; rw [h.2.2.1]; rfl

theorem newVs_byteLen (h : Sizable o ident size p q) : (newVs o ident).len = 17 :=
  vs_byteLen (newVs_vsAt o h.1) (newVs_len o h.1)

/-- The text of the object, before and after. -/
theorem Sizable.hole (h : Sizable o ident size p q) : ∃ A B q', (Value.obj o).toJson = A ++ (versionText ident currentVersion (str% "JSON") size ++ B) ∧
    (Value.obj (Value.insert (str% "v") (.str (newVs o ident)) o)).toJson = A ++ (newVs o ident ++ B) ∧
    (o.head?.map Prod.fst = some (str% "v") → A = str% "{\"v\":\"") ∧
    findVs (A ++ (newVs o ident ++ B)) = some (p, q') ∧ p.length ≤ A.length ∧ (p.length = A.length ∨ p.length + 17 ≤ A.length) := by
  obtain ⟨A, B, hAB, hA⟩ := toJson_hole h.key
  have hv1 : vsAt (versionText ident currentVersion (str% "JSON") size) = true := versionText_vsAt h.1 json_serial _ _
  have hl1 : (versionText ident currentVersion (str% "JSON") size).length = 17 :=
    versionText_len _ _ _ _ (idents_upper _ h.1).1 rfl
  have e1 := hAB (versionText ident currentVersion (str% "JSON") size)
  rw [insert_find_self h.2.2.1, vsAt_esc hv1 hl1] at e1
  have e2 := hAB (newVs o ident)
  rw [vsAt_esc (newVs_vsAt o h.1) (newVs_len o h.1)] at e2
  obtain ⟨p', q1, q', f1, f2, f3, f4⟩ := findVs_replace (a := A) (b := B) hv1 (newVs_vsAt o h.1) hl1 (newVs_len o h.1)
  have := h.2.2.2.1
  rw [e1, f1] at this
  cases this
  exact ⟨A, B, q', e1, e2, fun hh => by rw [hA hh]; decide, f2, f3, f4⟩

theorem sizeOut_len (h : Sizable o ident size p q) : (sizeOut o ident p q).raw.length = (Value.obj o).toJson.len := by
  obtain ⟨h1, h2, h3, h4, h5, h6⟩ := h
  obtain ⟨e1, e2, -⟩ := findVs_some.mp h4
  have hlen : (Value.obj o).toJson.len = p.len + 17 + Str.len (q.drop 17) := by
    conv_lhs => rw [e1, ← List.take_append_drop 17 q]
    rw [len_append, len_append, vsAt_byteLen e2]
    omega
  unfold sizeOut
  rw [toUtf8_length, len_append, len_append, newVs_byteLen ⟨h1, h2, h3, h4, h5, h6⟩, hlen]
  omega

/-- The length of the text does not depend on the version string. -/
theorem newText_len (h : Sizable o ident size p q) :
    (Value.obj (Value.insert (str% "v") (.str (newVs o ident)) o)).toJson.len = (Value.obj o).toJson.len := by
  obtain ⟨A, B, q', e1, e2, -⟩ := h.hole
  have l1 : (versionText ident currentVersion (str% "JSON") size).len = 17 :=
    vs_byteLen (versionText_vsAt h.1 json_serial _ _) (versionText_len _ _ _ _ (idents_upper _ h.1).1 rfl)
  rw [e1, e2, len_append, len_append, len_append, len_append, l1, newVs_byteLen h]

/-- The result can be sized again, with the same result. -/
theorem Sizable.again (h : Sizable o ident size p q) :
    ∃ q', Sizable (Value.insert (str% "v") (.str (newVs o ident)) o) ident ((Value.obj o).toJson.len % 2 ^ 32) p q' ∧
      newVs (Value.insert (str% "v") (.str (newVs o ident)) o) ident = newVs o ident ∧
      (sizeOut (Value.insert (str% "v") (.str (newVs o ident)) o) ident p q').ked = (sizeOut o ident p q).ked := by
  obtain ⟨A, B, q', e1, e2, -, f, -⟩ := h.hole
  have hl := newText_len h
  have hv : newVs (Value.insert (str% "v") (.str (newVs o ident)) o) ident = newVs o ident := by
    unfold newVs at hl ⊢
    rw [hl]
  refine ⟨q', ⟨h.1, h.2.2.2.2.2, ?_, ?_, h.2.2.2.2.1, ?_⟩, hv, ?_⟩
  · rw [find_insert_self]; rfl
  · rw [e2, f]
  · rw [hl]; exact h.2.2.2.2.2
  · unfold sizeOut
    rw [hv, insert_insert]

/-- With the version string first, the bytes are the text of the document. -/
theorem sizeOut_first (h : Sizable o ident size p q) (hf : o.head?.map Prod.fst = some (str% "v")) :
    (sizeOut o ident p q).raw = toUtf8 (sizeOut o ident p q).ked.toJson ∧ p = str% "{\"v\":\"" := by
  obtain ⟨A, B, q', e1, e2, hA, f, h1, h2⟩ := h.hole
  have hA' := hA hf
  have hpl : p.length = A.length := by
    rcases h2 with h2 | h2
    · exact h2
    · rw [hA'] at h2; simp at h2
  obtain ⟨g1, g2, -⟩ := findVs_some.mp h.2.2.2.1
  rw [e1] at g1
  obtain ⟨g3, g4⟩ := List.append_inj g1 hpl.symm
  unfold sizeOut
  dsimp only
  refine ⟨?_, by rw [← g3, hA']⟩
  rw [e2, ← g3, ← g4, List.drop_left' (versionText_len _ _ _ _ (idents_upper _ h.1).1 rfl)]

end

end Keride
