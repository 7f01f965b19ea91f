/-
`verify`: what it accepts.
-/
import Verif.Lemmas.Saider

namespace Keride.Saider

open Spec Matter

theorem wf_digest {c : Str} {n : Nat} {d : Bytes} (hn : (c, n) ∈ fixedCodes) (hl : n ≤ d.length) : ∃ z, Wf ⟨c, 0, d.take n⟩ z :=
  Number.wf_fixed_mk hn (by rw [List.length_take]; omega)

theorem qb64_digest (chk : Bool) {c : Str} {n : Nat} {d : Bytes} (hn : (c, n) ∈ fixedCodes) (hl : n ≤ d.length) :
    ∃ q, qb64 chk ⟨c, 0, d.take n⟩ = .ok q ∧ Matter.newWithQb64 q = .ok ⟨c, 0, d.take n⟩ := by
  obtain ⟨z, hz⟩ := wf_digest hn hl
  obtain ⟨s, b, h1, -, h3, -⟩ := Number.roundtrip chk hz
  exact ⟨s, h1, h3⟩

structure Verified (H : Hash) (chk : Bool) (m : M) (pre ver : Bool) (kind : Option Str) (label : Str) (ignore : Option (List Str))
    (o : List (Str × Value)) (d : Bytes) (o2 : List (Str × Value)) (k : Option Str) (n : Nat) (q : Str) : Prop where
  der : Derived H m.code kind label ignore o d o2 k
  row : (m.code, n) ∈ fixedCodes
  len : n ≤ d.length
  qm : qb64 chk m = .ok q
  qd : qb64 chk ⟨m.code, 0, d.take n⟩ = .ok q
  vers : ver = true → Value.hasKey (str% "v") o = true → Value.find (str% "v") o = Value.find (str% "v") o2
  pref : pre = true → Value.find label o = some (.str q)

theorem index_ok {o : List (Str × Value)} {k : Str} {x : Value} (h : (Value.obj o).index k = .ok x) : Value.find k o = some x := by
  unfold Value.index at h
  cases hf : Value.find k o with
  | none => simp [hf] at h
  | some y => simp [hf] at h; rw [h]

theorem toStr_ok {v : Value} {s : Str} (h : v.toStr = .ok s) : v = .str s := by
  cases v <;> cases h
  rfl

theorem verify_true {H : Hash} {chk : Bool} {m : M} {sad : Value} {pre ver : Option Bool} {kind label : Option Str}
    {ignore : Option (List Str)} (h : verify H chk m sad pre ver kind label ignore = .ok true) :
    ∃ o d o2 k n q, sad = .obj o ∧
      Verified H chk m (pre.getD false) (ver.getD true) kind (label.getD (str% "d")) ignore o d o2 k n q := by
  have h0 := h
  unfold verify at h
  dsimp only at h
  cases hd : derive H sad (some m.code) kind (some (label.getD (str% "d"))) ignore with
  | panic => simp [hd] at h
  | err e => simp [hd] at h
  | ok p =>
    obtain ⟨d, x⟩ := p
    obtain ⟨o, o2, k, rfl, rfl, hD⟩ := derive_ok hd
    obtain ⟨n, hn, -⟩ := digest_rows _ hD.code
    by_cases hl : n ≤ d.length
    · rw [verify_eq hn hD.code hd hl] at h0
      unfold verifyCompare at h0
      rw [Res.bind_eq_ok] at h0
      obtain ⟨a, ha, h0⟩ := h0
      rw [Res.bind_eq_ok] at h0
      obtain ⟨b, hb, h0⟩ := h0
      split at h0
      · cases h0
      · rename_i hab
        rw [not_not] at hab
        subst hab
        rw [Res.bind_eq_ok] at h0
        obtain ⟨same, hsame, h0⟩ := h0
        split at h0
        · cases h0
        · rename_i hsm
          have hst : same = true := by simpa using hsm
          subst hst
          refine ⟨o, d, o2, k, n, a, rfl, hD, hn, hl, ha, hb, ?_, ?_⟩
          · intro hv hk
            rw [if_pos hv, show (Value.obj o).toMap = .ok o from rfl, Res.ok_bind, if_pos hk] at hsame
            simp only [Res.bind_eq_ok] at hsame
            obtain ⟨v, hv1, v', hv2, w, hw1, w', hw2, he⟩ := hsame
            have e : v' = w' := by simpa using he
            rw [index_ok hv1, index_ok hw1, toStr_ok hv2, toStr_ok hw2, e]
          · intro hp
            rw [if_pos hp] at h0
            simp only [Res.bind_eq_ok] at h0
            obtain ⟨v, hv1, v', hv2, q, hq, he⟩ := h0
            rw [ha] at hq
            cases hq
            have e : v' = a := by simpa using he
            rw [index_ok hv1, toStr_ok hv2, e]
    · have hnew : new H none none none none (some m.code) (some d) none none none = .err .shortage := by
        unfold new
        rw [if_pos (by simp)]
        have hvc : validateCode m.code = .ok () := by unfold validateCode; rw [if_pos (by simpa using hD.code)]
        simp only [hvc, Res.ok_bind]
        rw [new_digest hn, if_pos (by omega)]
      simp [hd, hnew] at h

/-- A derived document verifies. -/
theorem verify_of {H : Hash} {chk : Bool} {m : M} {pre ver : Option Bool} {kind label : Option Str}
    {ignore : Option (List Str)} {o d o2 k n q} (h : Verified H chk m (pre.getD false) (ver.getD true) kind (label.getD (str% "d")) ignore o d o2 k n q)
    (hs : Value.hasKey (str% "v") o = true → ∃ s, Value.find (str% "v") o = some (.str s)) :
    verify H chk m (.obj o) pre ver kind label ignore = .ok true := by
  have hd : derive H (.obj o) (some m.code) kind (some (label.getD (str% "d"))) ignore = .ok (d, .obj o2) := by
    rw [derive_eq H h.der.code, h.der.prep1, Res.ok_bind, h.der.fin]
  rw [verify_eq h.row h.der.code hd h.len]
  unfold verifyCompare
  rw [h.qm, Res.ok_bind, h.qd, Res.ok_bind, if_neg (by simp), show (Value.obj o).toMap = .ok o from rfl]
  have e1 : (if ver.getD true = true then do
        let map ← (Res.ok o : Res _)
        if Value.hasKey (str% "v") map then do
          let v ← (Value.obj o).index (str% "v")
          let v ← v.toStr
          let w ← (Value.obj o2).index (str% "v")
          let w ← w.toStr
          .ok (decide (v = w))
        else .ok true
      else .ok true : Res Bool) = .ok true := by
    split
    · rename_i hv
      rw [Res.ok_bind]
      split
      · rename_i hk
        obtain ⟨s, hs⟩ := hs hk
        have h2 := h.vers hv hk
        rw [hs] at h2
        simp [Value.index, hs, ← h2, Value.toStr]
      · rfl
    · rfl
  rw [e1, Res.ok_bind]
  simp only [Bool.not_true, Bool.false_eq_true, if_false]
  split
  · rename_i hp
    simp [Value.index, h.pref hp, Value.toStr]
  · rfl

/-! ## Tamper evidence -/

theorem filter_insert (l : Str) (x : Value) (o : List (Str × Value)) : otherFields l (Value.insert l x o) = otherFields l o := by
  induction o with
  | nil => simp [Value.insert, otherFields]
  | cons e o ih =>
    obtain ⟨k, v⟩ := e
    rw [Value.insert]
    split
    · rename_i hk; simp [otherFields, hk]
    · rename_i hk
      unfold otherFields at ih ⊢
      simpa [hk] using ih

/-- With the version field checked, sizing changed nothing. -/
theorem Verified.same {H : Hash} {chk : Bool} {m : M} {pre : Bool} {kind : Option Str} {label : Str} {ignore : Option (List Str)}
    {o d o2 k n q} (h : Verified H chk m pre true kind label ignore o d o2 k n q) :
    o2 = Value.insert label (.str (dummy (saidChars m.code))) o := by
  obtain ⟨o2', e, -, -, -, h5⟩ := prep_ok h.der.prep1
  cases e
  rcases h5 with ⟨-, h5, -⟩ | ⟨ident, size, p, q, hs, -, -, h5⟩
  · exact h5
  · have hne := h.der.label_ne
    have hk : Value.hasKey (str% "v") o = true := by
      have := hs.key
      unfold Value.hasKey at this ⊢
      rwa [find_insert_ne hne.symm] at this
    have hv := h.vers rfl hk
    rw [h5, find_insert_self] at hv
    rw [h5]
    apply insert_find_self
    rw [find_insert_ne hne.symm, hv]

theorem plain_insert {l s : Str} {o : List (Str × Value)} (h : Plain (.obj o)) : Plain (.obj (Value.insert l (.str s) o)) := by
  simp only [Plain, Proper] at h ⊢
  exact ⟨insert_nodup h.1, insert_proper (by simp [Proper]) h.2⟩

theorem same_digest {chk : Bool} {c : Str} {n : Nat} {d d' : Bytes} {q : Str} (hn : (c, n) ∈ fixedCodes) (h1 : n ≤ d.length) (h2 : n ≤ d'.length)
    (q1 : qb64 chk ⟨c, 0, d.take n⟩ = .ok q) (q2 : qb64 chk ⟨c, 0, d'.take n⟩ = .ok q) : d.take n = d'.take n := by
  obtain ⟨s, e1, e2⟩ := qb64_digest chk hn h1
  obtain ⟨s', e3, e4⟩ := qb64_digest chk hn h2
  rw [q1] at e1
  rw [q2] at e3
  cases e1
  cases e3
  rw [e2] at e4
  injection e4 with e
  injection e

theorem fixed_unique : ∀ c n m, (c, n) ∈ fixedCodes → (c, m) ∈ fixedCodes → n = m := by
  have key : ∀ e ∈ fixedCodes, ∀ f ∈ fixedCodes, e.1 = f.1 → e.2 = f.2 := by decide +kernel
  intro c n m h1 h2
  exact key _ h1 _ h2 rfl

theorem hash_of_verified {H : Hash} (hH : HashOk H) {chk : Bool} {m : M} {pre pre' ver ver' : Bool} {kind kind' : Option Str} {label label' : Str}
    {ignore ignore' : Option (List Str)} {o d o2 k n q o' d' o2' k' n' q'}
    (h : Verified H chk m pre ver kind label ignore o d o2 k n q) (h' : Verified H chk m pre' ver' kind' label' ignore' o' d' o2' k' n' q') :
    d = d' ∧ q = q' := by
  have hq : q = q' := by have := h.qm; rw [h'.qm] at this; injection this with e; exact e.symm
  subst hq
  have hn := fixed_unique _ _ _ h.row h'.row
  subst hn
  have hl := hH m.code (mem_digests.mpr h.der.code) n h.row (toUtf8 (Value.obj (removeAll (ignore.getD []) o2)).toJson)
  have hl' := hH m.code (mem_digests.mpr h.der.code) n h.row (toUtf8 (Value.obj (removeAll (ignore'.getD []) o2')).toJson)
  rw [← h.der.digest] at hl
  rw [← h'.der.digest] at hl'
  have := same_digest h.row h.len h'.len h.qd h'.qd
  rw [List.take_of_length_le (by omega), List.take_of_length_le (by omega)] at this
  exact ⟨this, rfl⟩

/-! ## Ignored fields -/

/-- The keys of an object are distinct. -/
abbrev Keys (o : List (Str × Value)) : Prop := (o.map Prod.fst).Nodup

theorem find_mem {k : Str} {v : Value} {o : List (Str × Value)} (hn : Keys o) : Value.find k o = some v ↔ (k, v) ∈ o := by
  induction o with
  | nil => simp [Value.find]
  | cons e o ih =>
    obtain ⟨k', v'⟩ := e
    simp only [Keys, List.map_cons, List.nodup_cons] at hn
    rw [Value.find]
    split
    · rename_i hk
      subst hk
      simp only [Option.some.injEq, List.mem_cons, Prod.mk.injEq, true_and]
      constructor
      · intro h; exact .inl h.symm
      · rintro (h | h)
        · exact h.symm
        · exact absurd (List.mem_map.mpr ⟨_, h, rfl⟩) hn.1
    · rename_i hk
      rw [ih hn.2]
      simp only [List.mem_cons, Prod.mk.injEq]
      constructor
      · exact .inr
      · rintro (h | h)
        · exact absurd h.1.symm hk
        · exact h

theorem remove_perm (k : Str) {o : List (Str × Value)} (hn : Keys o) : (Value.remove k o).Perm (o.filter fun e => e.1 ≠ k) := by
  induction o with
  | nil => simp [Value.remove]
  | cons e o ih =>
    obtain ⟨k', v⟩ := e
    simp only [Keys, List.map_cons, List.nodup_cons] at hn
    rw [Value.remove]
    split
    · rename_i hk
      subst hk
      have hf : o.filter (fun e => decide (e.1 ≠ k')) = o := by
        rw [List.filter_eq_self]
        intro e he
        simp only [ne_eq, decide_eq_true_eq]
        rintro rfl
        exact hn.1 (List.mem_map.mpr ⟨_, he, rfl⟩)
      rw [List.filter_cons_of_neg (by simp), hf]
      cases hl : o.getLast? with
      | none =>
        rw [List.getLast?_eq_none_iff] at hl
        subst hl
        simp
      | some e =>
        dsimp only
        have h1 : o.dropLast ++ [e] = o := by
          have hne : o ≠ [] := by rintro rfl; simp at hl
          rw [List.getLast?_eq_some_getLast hne] at hl
          cases hl
          exact List.dropLast_concat_getLast hne
        conv_rhs => rw [← h1]
        exact (List.perm_append_singleton e o.dropLast).symm
    · rename_i hk
      rw [List.filter_cons_of_pos (by simpa using hk)]
      exact (ih hn.2).cons _

theorem removeAll_perm (ks : List Str) {o : List (Str × Value)} (hn : Keys o) :
    (removeAll ks o).Perm (o.filter fun e => e.1 ∉ ks) := by
  induction ks generalizing o with
  | nil =>
    rw [removeAll, List.filter_eq_self.mpr (by simp)]
  | cons k ks ih =>
    rw [removeAll]
    split
    · have hp := remove_perm k hn
      have hn2 : Keys (Value.remove k o) := by
        unfold Keys
        rw [(hp.map Prod.fst).nodup_iff]
        exact List.Nodup.sublist (List.Sublist.map _ List.filter_sublist) hn
      refine (ih hn2).trans ((hp.filter _).trans ?_)
      rw [List.filter_filter]
      apply List.Perm.of_eq
      congr 1
      funext e
      simp only [List.mem_cons, not_or]
      rw [Bool.and_comm]
      exact (Bool.decide_and _ _).symm
    · rename_i hk
      refine (ih hn).trans ?_
      apply List.Perm.of_eq
      apply List.filter_congr
      intro e he
      have : e.1 ≠ k := by
        rintro rfl
        apply hk
        unfold Value.hasKey
        rw [(find_mem hn).mpr he]
        rfl
      simp [this]

theorem removeAll_keys (ks : List Str) {o : List (Str × Value)} (hn : Keys o) : Keys (removeAll ks o) := by
  unfold Keys
  rw [((removeAll_perm ks hn).map Prod.fst).nodup_iff]
  exact List.Nodup.sublist (List.Sublist.map _ List.filter_sublist) hn

theorem find_removeAll {ks : List Str} {k : Str} (hk : k ∉ ks) {o : List (Str × Value)} (hn : Keys o) :
    Value.find k (removeAll ks o) = Value.find k o := by
  apply Option.ext
  intro v
  rw [find_mem (removeAll_keys ks hn), find_mem hn, (removeAll_perm ks hn).mem_iff, List.mem_filter]
  simp [hk]

theorem find_removeAll_mem {ks : List Str} {k : Str} (hk : k ∈ ks) {o : List (Str × Value)} (hn : Keys o) :
    Value.find k (removeAll ks o) = none := by
  cases hf : Value.find k (removeAll ks o) with
  | none => rfl
  | some v =>
    rw [find_mem (removeAll_keys ks hn), (removeAll_perm ks hn).mem_iff, List.mem_filter] at hf
    simp [hk] at hf

theorem properObj_mem {F : Str → Prop} {o : List (Str × Value)} : ProperObj F o ↔ ∀ e ∈ o, Proper F e.2 := by
  induction o with
  | nil => simp [ProperObj]
  | cons e o ih =>
    obtain ⟨k, v⟩ := e
    simp [ProperObj, ih]

theorem plain_removeAll (ks : List Str) {o : List (Str × Value)} (h : Plain (.obj o)) : Plain (.obj (removeAll ks o)) := by
  simp only [Plain, Proper] at h ⊢
  refine ⟨removeAll_keys ks h.1, ?_⟩
  rw [properObj_mem] at *
  intro e he
  exact h.2 e (List.mem_filter.mp ((removeAll_perm ks h.1).mem_iff.mp he)).1

theorem field_find (k : Str) (o : List (Str × Value)) : field k (.obj o) = Value.find k o := by
  unfold field
  dsimp only
  induction o with
  | nil => rfl
  | cons e o ih =>
    obtain ⟨k', v⟩ := e
    rw [Value.find]
    by_cases h : k' = k
    · simp [List.find?, h]
    · simp only [List.find?, h, decide_false, if_false]
      exact ih

theorem blanked_insert {c label : Str} {o : List (Str × Value)} (hn : Keys o) (hk : Value.hasKey label o = true) :
    blanked c label o = Value.insert label (.str (dummy (saidChars c))) o := by
  induction o with
  | nil => simp [Value.hasKey, Value.find] at hk
  | cons e o ih =>
    obtain ⟨k, v⟩ := e
    simp only [Keys, List.map_cons, List.nodup_cons] at hn
    by_cases h : k = label
    · subst h
      have : blanked c k o = o := by
        unfold blanked
        rw [List.map_congr_left (g := id), List.map_id]
        intro e he
        rw [if_neg]
        · rfl
        · rintro rfl
          exact hn.1 (List.mem_map.mpr ⟨_, he, rfl⟩)
      rw [Value.insert, if_pos rfl]
      unfold blanked at this ⊢
      rw [List.map_cons, this, if_pos rfl]
      rfl
    · have hk' : Value.hasKey label o = true := by simpa [Value.hasKey, Value.find, h] using hk
      rw [Value.insert, if_neg h, ← ih hn.2 hk']
      unfold blanked
      rw [List.map_cons, if_neg h]

/-- `serialize` accepts what `derive` gives it. -/
theorem serialize_of {o : List (Str × Value)} {kind : Option Str} (hk : kind.getD (str% "JSON") = str% "JSON")
    (hv : ∀ x, Value.find (str% "v") o = some x → ∃ ident v size, ident ∈ idents ∧ VersionFits v size ∧
      x = .str (versionText ident v (str% "JSON") size)) :
    serialize (.obj o) kind = .ok (toUtf8 (Value.obj o).toJson) := by
  unfold serialize
  rw [show (Value.obj o).toMap = .ok o from rfl, Res.ok_bind]
  have e : (if Value.hasKey (str% "v") o then do
      let v ← (Value.obj o).index (str% "v")
      let s ← v.toStr
      let info ← deversify s
      .ok info.kind
    else .ok (str% "JSON") : Res Str) = .ok (str% "JSON") := by
    split
    · rename_i h
      unfold Value.hasKey at h
      obtain ⟨x, hx⟩ := Option.isSome_iff_exists.mp h
      obtain ⟨ident, v, size, h1, h2, rfl⟩ := hv x hx
      simp [Value.index, hx, Value.toStr, deversify_text h1 json_serial h2]
    · rfl
  rw [e, Res.ok_bind]
  unfold dumps
  rw [Option.getD_some, hk, if_pos rfl]

end Keride.Saider

namespace Keride.Saider

open Spec Matter

theorem Derived.again {H : Hash} {c label : Str} {kind : Option Str} {ignore : Option (List Str)} {o o2 : List (Str × Value)} {d : Bytes}
    {k : Option Str} (h : Derived H c kind label ignore o d o2 k) (x : Value) :
    Derived H c kind label ignore (Value.insert label x o2) d o2 k :=
  { h with prep1 := by rw [insert_insert, insert_find_self h.found]; exact h.prep2 }

theorem saidify_of {H : Hash} {chk : Bool} {code kind label : Option Str} {ignore : Option (List Str)} {o o2 : List (Str × Value)}
    {k : Option Str} {d : Bytes} {n : Nat} {q : Str} (hD : Derived H (code.getD (str% "E")) kind (label.getD (str% "d")) ignore o d o2 k)
    (hn : (code.getD (str% "E"), n) ∈ fixedCodes) (hl : n ≤ d.length) (hk : Value.hasKey (label.getD (str% "d")) o = true)
    (hq : qb64 chk ⟨code.getD (str% "E"), 0, d.take n⟩ = .ok q) :
    saidify H chk (.obj o) code kind label ignore =
      .ok (⟨code.getD (str% "E"), 0, d.take n⟩, .obj (Value.insert (label.getD (str% "d")) (.str q) o2)) := by
  unfold saidify
  dsimp only
  generalize code.getD (str% "E") = c at *
  generalize label.getD (str% "d") = l at *
  have hd : derive H (.obj o) (some c) kind (some l) ignore = .ok (d, .obj o2) := by
    rw [derive_eq H hD.code, hD.prep1, Res.ok_bind, hD.fin]
  have hnew : new H (some (.obj o2)) (some l) kind ignore (some c) none none none none =
      Matter.new (some c) (some d) none none none := by
    unfold new
    rw [if_pos (by simp)]
    have hkey2 : Value.hasKey l o2 = true := by unfold Value.hasKey; rw [hD.found]; rfl
    have hdc : deriveCode (some (.obj o2)) l (some c) = .ok c := by
      unfold deriveCode
      dsimp only
      rw [show (Value.obj o2).toMap = .ok o2 from rfl, Res.ok_bind, hkey2]
      rfl
    have hvc : validateCode c = .ok () := by unfold validateCode; rw [if_pos (by simpa using hD.code)]
    simp only [Option.getD_some]
    rw [hdc, Res.ok_bind, hvc, Res.ok_bind, derive_again' hD]
    rfl
  rw [show (Value.obj o).toMap = .ok o from rfl, Res.ok_bind, hk]
  simp only [Bool.not_true, Bool.false_eq_true, if_false]
  rw [hd, Res.ok_bind, hnew, new_digest hn, if_neg (by omega), Res.ok_bind, hq, Res.ok_bind]
  rfl

/-- The documents `derive` accepts: without version field, or with a sizable one. -/
theorem derived_of (H : Hash) {c label : Str} {kind : Option Str} {ignore : Option (List Str)} {o : List (Str × Value)} (hc : c ∈ digestCodes)
    (hl : label ≠ str% "v") (hk : kind.getD (str% "JSON") = str% "JSON") (hn : Keys o)
    (hv : Value.hasKey (str% "v") o = false ∨
      ∃ ident size p q, Sizable (Value.insert label (.str (dummy (saidChars c))) o) ident size p q) :
    ∃ o2 k, Derived H c kind label ignore o (H c (toUtf8 (Value.obj (removeAll (ignore.getD []) o2)).toJson)) o2 k := by
  have key : ∃ o2 k, prep kind (Value.insert label (.str (dummy (saidChars c))) o) = .ok (k, .obj o2) := by
    rcases hv with hv | ⟨ident, size, p, q, hs⟩
    · refine ⟨Value.insert label (.str (dummy (saidChars c))) o, kind, ?_⟩
      unfold prep
      rw [if_neg]
      unfold Value.hasKey at hv ⊢
      rw [find_insert_ne hl.symm, hv]
      simp
    · refine ⟨Value.insert (str% "v") (.str (newVs (Value.insert label (.str (dummy (saidChars c))) o) ident))
        (Value.insert label (.str (dummy (saidChars c))) o), some (str% "JSON"), ?_⟩
      unfold prep
      rw [if_pos hs.key, sizeify_of hk hs]
      rfl
  obtain ⟨o2, k, hp⟩ := key
  obtain ⟨o2', e, hp2, hf, hkk, hcase⟩ := prep_ok hp
  cases e
  have hkj : k.getD (str% "JSON") = str% "JSON" := by
    rcases hkk with h | h
    · exact h
    · rw [h]; exact hk
  have hn1 : Keys (Value.insert label (.str (dummy (saidChars c))) o) := insert_nodup hn
  have hn2 : Keys o2 := by
    rcases hcase with ⟨-, rfl, -⟩ | ⟨ident, size, p, q, -, -, -, rfl⟩
    · exact hn1
    · exact insert_nodup hn1
  refine ⟨o2, k, hc, hl, hp, ?_, ?_, hp2, rfl⟩
  · unfold finish
    rw [show (Value.obj o2).toMap = .ok o2 from rfl, Res.ok_bind, serialize_of hkj, Res.ok_bind]
    · unfold hashDigest
      rw [if_pos (by simpa using hc)]
      rfl
    · intro x hx
      by_cases hi : str% "v" ∈ ignore.getD []
      · rw [find_removeAll_mem hi hn2] at hx; cases hx
      · rw [find_removeAll hi hn2] at hx
        rcases hcase with ⟨h, rfl, -⟩ | ⟨ident, size, p, q, hs, -, -, rfl⟩
        · unfold Value.hasKey at h
          rw [hx] at h
          cases h
        · rw [find_insert_self] at hx
          cases hx
          exact ⟨ident, currentVersion, _, hs.1, fits_current hs.2.2.2.2.2, rfl⟩
  · rw [hf _ hl, find_insert_self]

theorem hasKey_mem {k : Str} {o : List (Str × Value)} : k ∈ o.map Prod.fst ↔ Value.hasKey k o = true := by
  induction o with
  | nil => simp [Value.hasKey, Value.find]
  | cons e o ih =>
    obtain ⟨k', v⟩ := e
    by_cases hk : k' = k
    · simp [Value.hasKey, Value.find, hk]
    · have : ¬ k = k' := fun h => hk h.symm
      simp only [List.map_cons, List.mem_cons, this, false_or, ih]
      simp [Value.hasKey, Value.find, hk]

/-- A document that starts with its version string can be sized once its SAID field is filled. -/
theorem sizable_blanked {o : List (Str × Value)} {c label ident : Str} {size : Nat} (hn : Keys o) (hl : Value.hasKey label o = true)
    (hlv : label ≠ str% "v") (hi : ident ∈ idents) (hs : size < 2 ^ 24)
    (hh : o.head? = some (str% "v", .str (versionText ident ⟨1, 0⟩ (str% "JSON") size)))
    (hlen : (toUtf8 (Value.obj (blanked c label o)).toJson).length < 2 ^ 24) :
    ∃ p q, Sizable (Value.insert label (.str (dummy (saidChars c))) o) ident size p q := by
  rw [blanked_insert hn hl, toUtf8_length] at hlen
  have hf : Value.find (str% "v") o = some (.str (versionText ident currentVersion (str% "JSON") size)) := by
    cases o with
    | nil => cases hh
    | cons e o =>
      rw [List.head?_cons, Option.some.injEq] at hh
      rw [hh, Value.find, if_pos rfl]
      rfl
  have hhead : (Value.insert label (.str (dummy (saidChars c))) o).head?.map Prod.fst = some (str% "v") := by
    cases o with
    | nil => cases hh
    | cons e o =>
      rw [List.head?_cons, Option.some.injEq] at hh
      rw [hh, Value.insert, if_neg hlv.symm]
      rfl
  obtain ⟨q, h⟩ := sizable_first (size := size) hi hs hhead (by rw [find_insert_ne hlv.symm]; exact hf) (by omega)
  exact ⟨_, q, h⟩

theorem put_insert {k : Str} {v : Value} {o : List (Str × Value)} (hn : Keys o) (hk : Value.hasKey k o = true) :
    Value.insert k v o = o.map fun e => if e.1 = k then (e.1, v) else e := by
  induction o with
  | nil => simp [Value.hasKey, Value.find] at hk
  | cons e o ih =>
    obtain ⟨k', v'⟩ := e
    simp only [Keys, List.map_cons, List.nodup_cons] at hn
    rw [Value.insert]
    by_cases h : k' = k
    · subst h
      rw [if_pos rfl, List.map_cons, if_pos rfl, List.map_congr_left (g := id), List.map_id]
      intro e he
      rw [if_neg]
      · rfl
      · rintro rfl
        exact hn.1 (List.mem_map.mpr ⟨_, he, rfl⟩)
    · rw [if_neg h, List.map_cons, if_neg h, ih hn.2]
      unfold Value.hasKey at hk ⊢
      rw [Value.find, if_neg h] at hk
      exact hk

theorem insert_filled {c label : Str} {o : List (Str × Value)} (hn : Keys o) :
    Value.insert label (.str (dummy (saidChars c))) o = filled c label o := by
  unfold filled
  split
  · rename_i h
    exact (blanked_insert hn (hasKey_mem.mp h)).symm
  · rename_i h
    clear hn
    induction o with
    | nil => rfl
    | cons e o ih =>
      obtain ⟨k, v⟩ := e
      simp only [List.map_cons, List.mem_cons, not_or] at h
      rw [Value.insert, if_neg (fun e => h.1 e.symm), ih h.2, List.cons_append]

theorem insert_sized {ident : Str} {o : List (Str × Value)} (hn : Keys o) (hk : Value.hasKey (str% "v") o = true) :
    Value.insert (str% "v") (.str (newVs o ident)) o = sized ident o := by
  rw [put_insert hn hk, newVs_size]
  rfl

end Keride.Saider
