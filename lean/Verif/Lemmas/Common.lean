/-
`deversify`, `versify`, `sizeify` and `sniff`.
-/
import Verif.Lemmas.Version
import Verif.Lemmas.Utf8Inv
import Verif.Lemmas.JsonRead

namespace Keride

open Spec

/-! ## `deversify` -/

theorem parts_ne {s : Str} (h : vsAt s = true) : vsIdent s ≠ [] := by
  have := vsIdent_len h
  intro e
  rw [e] at this
  simp at this

theorem versionText_split (ident kind : Str) (v : Version) (size : Nat) (hi : ident ∈ idents) (hk : kind ∈ serials)
    (hf : VersionFits v size) :
    parseUnsigned 16 255 (replaceVs vsMajor 0 (versionText ident v kind size)) = .ok v.major ∧
    parseUnsigned 16 255 (replaceVs vsMinor 0 (versionText ident v kind size)) = .ok v.minor ∧
    parseUnsigned 16 u32Max (replaceVs vsSize 0 (versionText ident v kind size)) = .ok size ∧
    replaceVs vsIdent 0 (versionText ident v kind size) = ident ∧
    replaceVs vsKind 0 (versionText ident v kind size) = kind := by
  have hv := versionText_vsAt hi hk v size
  obtain ⟨i1, -⟩ := idents_upper ident hi
  obtain ⟨k1, -⟩ := serials_upper kind hk
  have hl := versionText_len ident v kind size i1 k1
  obtain ⟨p1, p2, p3, p4, p5⟩ := versionText_parts i1 k1 v size []
  rw [List.append_nil] at p1 p2 p3 p4 p5
  obtain ⟨f1, f2, f3⟩ := hf
  have hex : ∀ w n, 0 < w → n < 16 ^ w → ∀ max, n ≤ max → parseUnsigned 16 max (hexFixed w n) = .ok n := by
    intro w n hw hn max hm
    refine parse_part (hexFixed_digits w n) ?_ ?_ hm
    · intro e
      have := hexFixed_len w n
      rw [e] at this
      simp at this
      omega
    · rw [hexFixed_val, Nat.mod_eq_of_lt hn]
  refine ⟨?_, ?_, ?_, ?_, ?_⟩
  · rw [replaceVs_exact _ hv hl, p3]; exact hex 1 _ (by omega) (by omega) _ (by omega)
  · rw [replaceVs_exact _ hv hl, p4]; exact hex 1 _ (by omega) (by omega) _ (by omega)
  · rw [replaceVs_exact _ hv hl, p5]; exact hex 6 _ (by omega) (by omega) _ (by unfold u32Max; omega)
  · rw [replaceVs_exact _ hv hl, p1]
  · rw [replaceVs_exact _ hv hl, p2]

theorem deversify_text {ident kind : Str} {v : Version} {size : Nat} (hi : ident ∈ idents) (hk : kind ∈ serials)
    (hf : VersionFits v size) : deversify (versionText ident v kind size) = .ok ⟨ident, kind, v, size⟩ := by
  obtain ⟨h1, h2, h3, h4, h5⟩ := versionText_split ident kind v size hi hk hf
  have hv := versionText_vsAt hi hk v size
  have hfv : findVs (versionText ident v kind size) = some ([], versionText ident v kind size) :=
    findVs_some.mpr ⟨rfl, hv, by intro i hi; simp at hi⟩
  unfold deversify
  rw [hfv, h1, h2, h3, h4, h5]
  simp only [Option.isSome_some, if_true, Res.ok_bind]
  rw [if_neg (by simp [hi]), if_neg (by simp [hk])]

theorem deversify_ok {s : Str} {i : VersionInfo} (h : deversify s = .ok i) :
    i.ident ∈ idents ∧ i.kind ∈ serials ∧ VersionFits i.version i.size ∧ s = versionText i.ident i.version i.kind i.size := by
  have h0 := h
  unfold deversify at h
  cases hf : findVs s with
  | none => rw [hf] at h; simp at h
  | some p =>
    obtain ⟨a, b⟩ := p
    rw [hf] at h
    simp only [Option.isSome_some, if_true, Res.bind_eq_ok] at h
    obtain ⟨maj, -, min, -, sz, -, h⟩ := h
    split at h
    · cases h
    · rename_i hid
      simp only [Bool.not_eq_true', List.contains_eq_mem, decide_eq_false_iff_not, not_not] at hid
      split at h
      · cases h
      · rename_i hkd
        simp only [Bool.not_eq_true', List.contains_eq_mem, decide_eq_false_iff_not, not_not] at hkd
        obtain ⟨e1, e2, -⟩ := findVs_some.mp hf
        rw [replaceVs_find _ hf] at hid
        have hlen := (idents_upper _ hid).1
        rw [List.length_append, List.length_append, vsIdent_len e2] at hlen
        have ha : a = [] := List.eq_nil_of_length_eq_zero (by omega)
        have hr : replaceVs vsIdent 0 (b.drop 17) = [] := List.eq_nil_of_length_eq_zero (by omega)
        have hb : b.drop 17 = [] := replaceVs_eq_nil (fun s hs => parts_ne hs) hr
        rw [List.drop_eq_nil_iff] at hb
        subst ha
        rw [List.nil_append] at e1
        subst e1
        have hl17 : s.length = 17 := by have := vsAt_len e2; omega
        rw [replaceVs_exact _ e2 hl17] at hkd
        rw [List.nil_append, hr, List.append_nil] at hid
        obtain ⟨v, size, f1, f2, -⟩ := vsAt_text e2
        rw [List.take_of_length_le (by omega)] at f2
        have := deversify_text hid hkd f1
        rw [← f2, h0] at this
        cases this
        exact ⟨hid, hkd, f1, f2⟩

theorem deversify_iff {s : Str} {i : VersionInfo} : deversify s = .ok i ↔
    i.ident ∈ idents ∧ i.kind ∈ serials ∧ VersionFits i.version i.size ∧ s = versionText i.ident i.version i.kind i.size := by
  refine ⟨deversify_ok, ?_⟩
  rintro ⟨h1, h2, h3, h4⟩
  rw [h4]
  exact deversify_text h1 h2 h3

theorem deversify_ne_panic (s : Str) : deversify s ≠ .panic := by
  unfold deversify
  split
  · intro h
    simp only [Res.bind_eq_panic] at h
    rcases h with h | ⟨_, -, h | ⟨_, -, h | ⟨_, -, h⟩⟩⟩
    · exact parseUnsigned_ne_panic _ _ _ h
    · exact parseUnsigned_ne_panic _ _ _ h
    · exact parseUnsigned_ne_panic _ _ _ h
    · split_ifs at h
  · intro h; cases h

/-! ## `versify` -/

theorem versify_ok {ident kind : Str} (hi : ident ∈ idents) (hk : kind ∈ serials) (v : Version) (size : Nat) :
    versify (some ident) (some v) (some kind) (some size) =
      .ok (ident ++ fmtPad 16 1 v.major ++ fmtPad 16 1 v.minor ++ kind ++ fmtPad 16 6 size ++ ['_']) := by
  unfold versify
  simp only [Option.getD_some]
  rw [if_neg (by simp [hi]), if_neg (by simp [hk])]

theorem versify_text {ident kind : Str} (hi : ident ∈ idents) (hk : kind ∈ serials) {v : Version} {size : Nat}
    (hf : VersionFits v size) : versify (some ident) (some v) (some kind) (some size) = .ok (versionText ident v kind size) := by
  obtain ⟨f1, f2, f3⟩ := hf
  rw [versify_ok hi hk, fmtPad_fixed (by omega) (by omega), fmtPad_fixed (by omega) (by omega),
    fmtPad_fixed (by omega) (by omega)]
  rfl

theorem versify_long {ident kind s : Str} (hi : ident ∈ idents) (hk : kind ∈ serials) {v : Version} {size : Nat}
    (hf : ¬ VersionFits v size) (h : versify (some ident) (some v) (some kind) (some size) = .ok s) : 17 < s.length := by
  rw [versify_ok hi hk] at h
  cases h
  have i1 := (idents_upper ident hi).1
  have k1 := (serials_upper kind hk).1
  have l1 := (fmtPad_spec (b := 16) (w := 1) (by omega) (by omega) v.major).2.2.1
  have l2 := (fmtPad_spec (b := 16) (w := 1) (by omega) (by omega) v.minor).2.2.1
  have l3 := (fmtPad_spec (b := 16) (w := 6) (by omega) (by omega) size).2.2.1
  simp only [List.length_append, i1, k1, List.length_singleton]
  unfold VersionFits at hf
  by_cases h1 : v.major < 16
  · by_cases h2 : v.minor < 16
    · have h3 : 16 ^ 6 ≤ size := by
        by_contra hc
        exact hf ⟨h1, h2, by omega⟩
      have := fmtPad_long h3
      omega
    · have := fmtPad_long (w := 1) (n := v.minor) (by omega)
      omega
  · have := fmtPad_long (w := 1) (n := v.major) (by omega)
    omega

/-! ## JSON around the version string -/

theorem escStr_id {s : Str} (h : ∀ c ∈ s, c ≠ '"' ∧ c ≠ '\\' ∧ 32 ≤ c.toNat) : escStr s = s := by
  induction s with
  | nil => rfl
  | cons c s ih =>
    obtain ⟨h1, h2, h3⟩ := h c (by simp)
    rw [escStr, ih fun d hd => h d (by simp [hd])]
    unfold escChar
    rw [if_neg h1, if_neg h2, if_neg (by omega), if_neg (by omega), if_neg (by omega), if_neg (by omega), if_neg (by omega),
      if_neg (by omega)]
    rfl

theorem vs_ascii {c : Char} (h : isUpper c = true ∨ isHexLow c = true ∨ c = '_') : c ≠ '"' ∧ c ≠ '\\' ∧ 32 ≤ c.toNat ∧ c.toNat < 128 := by
  have hn : 32 ≤ c.toNat ∧ c.toNat < 128 := by
    rcases h with h | h | rfl
    · have := of_decide_eq_true h; omega
    · have := of_decide_eq_true h; omega
    · decide
  refine ⟨?_, ?_, hn⟩
  · rintro rfl; revert h; decide
  · rintro rfl; revert h; decide

theorem vsAt_chars {s : Str} (h : vsAt s = true) : ∀ c ∈ s.take 17, isUpper c = true ∨ isHexLow c = true ∨ c = '_' := by
  obtain ⟨i, m, n, k, z, t, rfl, hi, hk, hz, h1, h2, h3, h4, h5⟩ := (vsAt_iff s).mp h
  have e : (i ++ m :: n :: (k ++ (z ++ '_' :: t))).take 17 = i ++ m :: n :: (k ++ (z ++ ['_'])) := by
    have : i ++ m :: n :: (k ++ (z ++ '_' :: t)) = (i ++ m :: n :: (k ++ (z ++ ['_']))) ++ t := by simp
    rw [this, List.take_left' (by simp [hi, hk, hz])]
  rw [e]
  intro c hc
  simp only [List.mem_append, List.mem_cons, List.not_mem_nil, or_false] at hc
  rcases hc with hc | rfl | rfl | hc | hc | rfl
  · exact .inl (h1 c hc)
  · exact .inr (.inl h2)
  · exact .inr (.inl h3)
  · exact .inl (h4 c hc)
  · exact .inr (.inl (h5 c hc))
  · exact .inr (.inr rfl)

theorem vsAt_esc {s : Str} (h : vsAt s = true) (hl : s.length = 17) : escStr s = s := by
  apply escStr_id
  intro c hc
  have := vsAt_chars h c (by rw [List.take_of_length_le (by omega)]; exact hc)
  obtain ⟨a, b, d, -⟩ := vs_ascii this
  exact ⟨a, b, d⟩

theorem ascii_len {s : Str} (h : ∀ c ∈ s, c.toNat < 128) : s.len = s.length := by
  induction s with
  | nil => rfl
  | cons c s ih =>
    have h1 : c.utf8Size = 1 := by
      have := h c (by simp)
      unfold Char.utf8Size
      rw [if_pos]
      rw [UInt32.le_iff_toNat_le]
      change c.toNat ≤ 127
      omega
    have := ih fun d hd => h d (by simp [hd])
    simp [Str.len, h1, this]
    omega

theorem vsAt_byteLen {s : Str} (h : vsAt s = true) : Str.len (s.take 17) = 17 := by
  rw [ascii_len, List.length_take]
  · have := vsAt_len h; omega
  · intro c hc
    exact (vs_ascii (vsAt_chars h c hc)).2.2.2

theorem len_append (s t : Str) : (s ++ t).len = s.len + t.len := by
  rw [← toUtf8_length, toUtf8_append, List.length_append, toUtf8_length, toUtf8_length]

theorem insert_find_self {k : Str} {x : Value} {o : List (Str × Value)} (h : Value.find k o = some x) : Value.insert k x o = o := by
  induction o with
  | nil => cases h
  | cons e o ih =>
    obtain ⟨k', v⟩ := e
    rw [Value.find] at h
    rw [Value.insert]
    split at h
    · rename_i hk; rw [if_pos hk]; cases h; rfl
    · rename_i hk; rw [if_neg hk, ih h]

theorem find_insert_self (k : Str) (x : Value) (o : List (Str × Value)) : Value.find k (Value.insert k x o) = some x := by
  induction o with
  | nil => simp [Value.insert, Value.find]
  | cons e o ih =>
    obtain ⟨k', v⟩ := e
    rw [Value.insert]
    split
    · rename_i hk; rw [Value.find, if_pos hk]
    · rename_i hk; rw [Value.find, if_neg hk, ih]

theorem find_insert_ne {k k' : Str} (hk : k' ≠ k) (x : Value) (o : List (Str × Value)) :
    Value.find k' (Value.insert k x o) = Value.find k' o := by
  induction o with
  | nil => simp [Value.insert, Value.find, hk.symm]
  | cons e o ih =>
    obtain ⟨k'', v⟩ := e
    rw [Value.insert]
    split
    · rename_i h; subst h; simp [Value.find, hk.symm]
    · rw [Value.find, Value.find, ih]

theorem insert_insert (k : Str) (x y : Value) (o : List (Str × Value)) : Value.insert k y (Value.insert k x o) = Value.insert k y o := by
  induction o with
  | nil => simp [Value.insert]
  | cons e o ih =>
    obtain ⟨k', v⟩ := e
    by_cases h : k' = k
    · simp [Value.insert, h]
    · simp [Value.insert, h, ih]

theorem insert_comm {k k' : Str} (hne : k ≠ k') (x y : Value) {o : List (Str × Value)} (h : Value.hasKey k o = true) :
    Value.insert k' y (Value.insert k x o) = Value.insert k x (Value.insert k' y o) := by
  induction o with
  | nil => simp [Value.hasKey, Value.find] at h
  | cons e o ih =>
    obtain ⟨k'', v⟩ := e
    by_cases h1 : k'' = k
    · subst h1
      simp [Value.insert, hne]
    · by_cases h2 : k'' = k'
      · subst h2
        simp [Value.insert, h1]
      · have h' : Value.hasKey k o = true := by
          simpa [Value.hasKey, Value.find, h1] using h
        simp [Value.insert, h1, h2, ih h']

theorem insert_map_fst {k : Str} {x : Value} {o : List (Str × Value)} (h : Value.hasKey k o = true) :
    (Value.insert k x o).map Prod.fst = o.map Prod.fst := by
  induction o with
  | nil => simp [Value.hasKey, Value.find] at h
  | cons e o ih =>
    obtain ⟨k', v⟩ := e
    by_cases h1 : k' = k
    · simp [Value.insert, h1]
    · have h' : Value.hasKey k o = true := by
        simpa [Value.hasKey, Value.find, h1] using h
      simp [Value.insert, h1, ih h']

/-- The text of an object around one of its string fields. -/
theorem toJson_hole {k : Str} {o : List (Str × Value)} (h : Value.hasKey k o = true) :
    ∃ A B, (∀ w, (Value.obj (Value.insert k (.str w) o)).toJson = A ++ (escStr w ++ B)) ∧
      (o.head?.map Prod.fst = some k → A = '{' :: (jsonStr k ++ [':', '"'])) := by
  have key : ∀ o, Value.hasKey k o = true → ∃ A B, (∀ w, joinWith ',' (Value.jsonObj (Value.insert k (.str w) o)) = A ++ (escStr w ++ B)) ∧
      (o.head?.map Prod.fst = some k → A = jsonStr k ++ [':', '"']) := by
    intro o
    induction o with
    | nil => intro h; simp [Value.hasKey, Value.find] at h
    | cons e o ih =>
      obtain ⟨k', v⟩ := e
      intro h
      by_cases h1 : k' = k
      · subst h1
        refine ⟨jsonStr k' ++ [':', '"'], '"' :: (if o = [] then [] else ',' :: joinWith ',' (Value.jsonObj o)), ?_, fun _ => rfl⟩
        intro w
        rw [Value.insert, if_pos rfl, Value.jsonObj]
        cases o with
        | nil => simp [Value.jsonObj, joinWith, Value.toJson, jsonStr]
        | cons e o => obtain ⟨k2, v2⟩ := e; simp [Value.jsonObj, joinWith, Value.toJson, jsonStr]
      · have h' : Value.hasKey k o = true := by
          simpa [Value.hasKey, Value.find, h1] using h
        obtain ⟨A, B, hAB, -⟩ := ih h'
        refine ⟨(jsonStr k' ++ ':' :: v.toJson) ++ ',' :: A, B, ?_, ?_⟩
        · intro w
          rw [Value.insert, if_neg h1, Value.jsonObj]
          have hne : ∃ s l, Value.jsonObj (Value.insert k (.str w) o) = s :: l := by
            cases o with
            | nil => exact ⟨_, _, rfl⟩
            | cons e o =>
              obtain ⟨k2, v2⟩ := e
              rw [Value.insert]
              split
              · exact ⟨_, _, rfl⟩
              · exact ⟨_, _, rfl⟩
          obtain ⟨s, l, e⟩ := hne
          rw [e, joinWith, ← e, hAB]
          · simp
          · simp
        · intro hh
          simp at hh
          exact absurd hh h1
  obtain ⟨A, B, h1, h2⟩ := key o h
  refine ⟨'{' :: A, B ++ ['}'], ?_, ?_⟩
  · intro w
    rw [Value.toJson, h1]
    simp
  · intro hh
    rw [h2 hh]

end Keride
