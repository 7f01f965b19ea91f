/-
SAIDs: `derive`, `saidify` and `verify`.
-/
import Verif.Lemmas.Sniff
import Verif.Lemmas.Number
import Verif.Spec.Said

namespace Keride.Saider

open Spec Matter

theorem mem_digests {c : Str} : c ∈ digests ↔ c ∈ digestCodes := by
  unfold digests digestCodes; simp; tauto

theorem digest_rows : ∀ c ∈ digestCodes, ∃ n, (c, n) ∈ fixedCodes ∧ sizage c = .ok ⟨c.length, 0, saidChars c, 0⟩ := by
  have key : digestCodes.all (fun c => decide ((c, if c.length = 1 then 32 else 64) ∈ fixedCodes ∧
      sizage c = .ok ⟨c.length, 0, saidChars c, 0⟩)) = true := by decide +kernel
  intro c hc
  have := of_decide_eq_true (List.all_eq_true.mp key c hc)
  exact ⟨_, this⟩

/-- Everything after the sizes are right. -/
def finish (H : Hash) (c : Str) (ignore : Option (List Str)) (p : Option Str × Value) : Res (Bytes × Value) := do
  let map ← p.2.toMap
  let cpa ← serialize (.obj (removeAll (ignore.getD []) map)) p.1
  let digest ← hashDigest H c cpa
  .ok (digest, p.2)

/-- Making the sizes right. -/
def prep (kind : Option Str) (o : List (Str × Value)) : Res (Option Str × Value) :=
  if Value.hasKey (str% "v") o then sizeify (.obj o) kind >>= fun r => .ok (some r.kind, r.ked) else .ok (kind, .obj o)

theorem derive_eq (H : Hash) {c : Str} (hc : c ∈ digestCodes) (o : List (Str × Value)) (kind : Option Str) (label : Str)
    (ignore : Option (List Str)) : derive H (.obj o) (some c) kind (some label) ignore =
      prep kind (Value.insert label (.str (dummy (saidChars c))) o) >>= finish H c ignore := by
  obtain ⟨n, -, hz⟩ := digest_rows c hc
  unfold derive validateCode
  simp only [Option.getD_some]
  rw [if_pos (by simpa using hc), Res.ok_bind, hz, Res.ok_bind]
  rfl

theorem prep_ok {kind k : Option Str} {o : List (Str × Value)} {x : Value} (h : prep kind o = .ok (k, x)) :
    ∃ o2, x = .obj o2 ∧ prep kind o2 = .ok (k, .obj o2) ∧ (∀ l, l ≠ str% "v" → Value.find l o2 = Value.find l o) ∧
      (k.getD (str% "JSON") = str% "JSON" ∨ k = kind) ∧
      ((Value.hasKey (str% "v") o = false ∧ o2 = o ∧ k = kind) ∨
        (∃ ident size p q, Sizable o ident size p q ∧ kind.getD (str% "JSON") = str% "JSON" ∧ k = some (str% "JSON") ∧
          o2 = Value.insert (str% "v") (.str (newVs o ident)) o)) := by
  unfold prep at h
  split at h
  · rename_i hv
    rw [Res.bind_eq_ok] at h
    obtain ⟨r, h1, h2⟩ := h
    obtain ⟨o', ident, size, p, q, e, hk, hs, rfl⟩ := sizeify_ok h1
    cases e
    cases h2
    obtain ⟨q', g1, -, g3⟩ := hs.again
    refine ⟨_, rfl, ?_, fun l hl => find_insert_ne hl _ _, .inl rfl, .inr ⟨ident, size, p, q, hs, hk, rfl, rfl⟩⟩
    unfold prep
    rw [if_pos g1.key, sizeify_of hk g1, Res.ok_bind, g3]
    rfl
  · rename_i hv
    cases h
    refine ⟨o, rfl, ?_, fun _ _ => rfl, .inr rfl, .inl ⟨by simpa using hv, rfl, rfl⟩⟩
    unfold prep
    rw [if_neg hv]

theorem serialize_ok {o : List (Str × Value)} {kind : Option Str} {b : Bytes} (h : serialize (.obj o) kind = .ok b) :
    b = toUtf8 (Value.obj o).toJson := by
  unfold serialize at h
  rw [Res.bind_eq_ok] at h
  obtain ⟨m, -, h⟩ := h
  rw [Res.bind_eq_ok] at h
  obtain ⟨k, -, h⟩ := h
  unfold dumps at h
  split at h
  · cases h; rfl
  · cases h

theorem finish_ok {H : Hash} {c : Str} {ignore : Option (List Str)} {k : Option Str} {o : List (Str × Value)} {d : Bytes} {x : Value}
    (h : finish H c ignore (k, .obj o) = .ok (d, x)) :
    x = .obj o ∧ d = H c (toUtf8 (Value.obj (removeAll (ignore.getD []) o)).toJson) := by
  unfold finish at h
  rw [Res.bind_eq_ok] at h
  obtain ⟨m, hm, h⟩ := h
  cases hm
  rw [Res.bind_eq_ok] at h
  obtain ⟨b, hb, h⟩ := h
  rw [serialize_ok hb] at h
  rw [Res.bind_eq_ok] at h
  obtain ⟨d', hd, h⟩ := h
  unfold hashDigest at hd
  split at hd
  · cases hd; cases h; exact ⟨rfl, rfl⟩
  · cases hd

structure Derived (H : Hash) (c : Str) (kind : Option Str) (label : Str) (ignore : Option (List Str)) (o : List (Str × Value))
    (d : Bytes) (o2 : List (Str × Value)) (k : Option Str) : Prop where
  code : c ∈ digestCodes
  label_ne : label ≠ str% "v"
  prep1 : prep kind (Value.insert label (.str (dummy (saidChars c))) o) = .ok (k, .obj o2)
  fin : finish H c ignore (k, .obj o2) = .ok (d, .obj o2)
  found : Value.find label o2 = some (.str (dummy (saidChars c)))
  prep2 : prep kind o2 = .ok (k, .obj o2)
  digest : d = H c (toUtf8 (Value.obj (removeAll (ignore.getD []) o2)).toJson)

theorem derive_code {H : Hash} {sad : Value} {c : Str} {kind label : Option Str} {ignore : Option (List Str)} {r : Bytes × Value}
    (h : derive H sad (some c) kind label ignore = .ok r) : c ∈ digestCodes ∧ ∃ o, sad = .obj o := by
  unfold derive at h
  rw [Res.bind_eq_ok] at h
  obtain ⟨u, hu, h⟩ := h
  unfold validateCode at hu
  split at hu
  · rename_i hc
    refine ⟨by simpa using hc, ?_⟩
    rw [Res.bind_eq_ok] at h
    obtain ⟨z, -, h⟩ := h
    rw [Res.bind_eq_ok] at h
    obtain ⟨x, hx, -⟩ := h
    cases sad with
    | obj o => exact ⟨o, rfl⟩
    | _ => cases hx
  · cases hu

theorem derive_ok {H : Hash} {sad : Value} {c label : Str} {kind : Option Str} {ignore : Option (List Str)} {d : Bytes} {x : Value}
    (h : derive H sad (some c) kind (some label) ignore = .ok (d, x)) :
    ∃ o o2 k, sad = .obj o ∧ x = .obj o2 ∧ Derived H c kind label ignore o d o2 k := by
  obtain ⟨hc, o, rfl⟩ := derive_code h
  rw [derive_eq H hc, Res.bind_eq_ok] at h
  obtain ⟨⟨k, y⟩, h1, h2⟩ := h
  obtain ⟨o2, rfl, h3, h4, -, h5⟩ := prep_ok h1
  obtain ⟨rfl, hd⟩ := finish_ok h2
  have hne : label ≠ str% "v" := by
    rintro rfl
    rcases h5 with ⟨h5, -⟩ | ⟨ident, size, p, q, hs, -⟩
    · unfold Value.hasKey at h5
      rw [find_insert_self] at h5
      cases h5
    · have := hs.2.2.1
      rw [find_insert_self] at this
      have e : dummy (saidChars c) = versionText ident currentVersion (str% "JSON") size := by
        simpa using this
      have hl := versionText_len ident currentVersion (str% "JSON") size (idents_upper _ hs.1).1 rfl
      rw [← e] at hl
      unfold dummy saidChars at hl
      rw [List.length_replicate] at hl
      split at hl <;> omega
  refine ⟨o, o2, k, rfl, rfl, hc, hne, h1, h2, ?_, h3, hd⟩
  rw [h4 _ hne, find_insert_self]

/-- Deriving again, with anything in the SAID field, gives the same. -/
theorem derive_again {H : Hash} {c label : Str} {kind : Option Str} {ignore : Option (List Str)} {o o2 : List (Str × Value)} {d : Bytes}
    {k : Option Str} (h : Derived H c kind label ignore o d o2 k) (x : Value) :
    derive H (.obj (Value.insert label x o2)) (some c) kind (some label) ignore = .ok (d, .obj o2) := by
  rw [derive_eq H h.code, insert_insert, insert_find_self h.found, h.prep2, Res.ok_bind, h.fin]

theorem derive_again' {H : Hash} {c label : Str} {kind : Option Str} {ignore : Option (List Str)} {o o2 : List (Str × Value)} {d : Bytes}
    {k : Option Str} (h : Derived H c kind label ignore o d o2 k) :
    derive H (.obj o2) (some c) kind (some label) ignore = .ok (d, .obj o2) := by
  have := derive_again h (.str (dummy (saidChars c)))
  rwa [insert_find_self h.found] at this

theorem new_digest {c : Str} {n : Nat} (hn : (c, n) ∈ fixedCodes) (d : Bytes) :
    Matter.new (some c) (some d) none none none = if d.length < n then .err .shortage else .ok ⟨c, 0, d.take n⟩ := new_fixed hn d

/-- What `saidify` returns. -/
theorem saidify_ok {H : Hash} {chk : Bool} {sad : Value} {code kind label : Option Str} {ignore : Option (List Str)} {m : M} {x : Value}
    (h : saidify H chk sad code kind label ignore = .ok (m, x)) :
    ∃ o o2 k d q n, sad = .obj o ∧ x = .obj (Value.insert (label.getD (str% "d")) (.str q) o2) ∧
      Derived H (code.getD (str% "E")) kind (label.getD (str% "d")) ignore o d o2 k ∧ qb64 chk m = .ok q ∧
      (code.getD (str% "E"), n) ∈ fixedCodes ∧ n ≤ d.length ∧ m = ⟨code.getD (str% "E"), 0, d.take n⟩ ∧
      Value.hasKey (label.getD (str% "d")) o = true := by
  unfold saidify at h
  dsimp only at h
  generalize hc : code.getD (str% "E") = c at h ⊢
  generalize hl : label.getD (str% "d") = l at h ⊢
  rw [Res.bind_eq_ok] at h
  obtain ⟨map, hmap, h⟩ := h
  split at h
  · cases h
  · rename_i hkey
    rw [Res.bind_eq_ok] at h
    obtain ⟨⟨d, y⟩, hd, h⟩ := h
    obtain ⟨o, o2, k, rfl, rfl, hD⟩ := derive_ok hd
    cases hmap
    rw [Res.bind_eq_ok] at h
    obtain ⟨m', hm, h⟩ := h
    rw [Res.bind_eq_ok] at h
    obtain ⟨q, hq, h⟩ := h
    cases h
    obtain ⟨n, hn, -⟩ := digest_rows c hD.code
    refine ⟨map, o2, k, d, q, n, rfl, rfl, hD, hq, hn, ?_⟩
    have hnew : new H (some (.obj o2)) (some l) kind ignore (some c) none none none none =
        Matter.new (some c) (some d) none none none := by
      unfold new
      rw [if_pos (by simp)]
      have hkey2 : Value.hasKey l o2 = true := by unfold Value.hasKey; rw [hD.found]; rfl
      have hdc : deriveCode (some (.obj o2)) l (some c) = .ok c := by
        unfold deriveCode
        dsimp only
        rw [show (Value.obj o2).toMap = .ok o2 from rfl, Res.ok_bind, hkey2]
        rfl
      have hvc : validateCode c = .ok () := by unfold validateCode; rw [if_pos (by simpa using hD.code)]
      simp only [Option.getD_some]
      rw [hdc, Res.ok_bind, hvc, Res.ok_bind, derive_again' hD]
      rfl
    dsimp only at hm
    rw [hnew, new_digest hn] at hm
    split at hm
    · cases hm
    · cases hm
      exact ⟨by omega, rfl, by simpa using hkey⟩

theorem verify_eq {H : Hash} {chk : Bool} {m : M} {sad : Value} {pre ver : Option Bool} {kind label : Option Str}
    {ignore : Option (List Str)} {o2 : List (Str × Value)} {d : Bytes} {n : Nat} (hn : (m.code, n) ∈ fixedCodes) (hc : m.code ∈ digestCodes)
    (hd : derive H sad (some m.code) kind (some (label.getD (str% "d"))) ignore = .ok (d, .obj o2)) (hl : n ≤ d.length) :
    verify H chk m sad pre ver kind label ignore =
      verifyCompare chk m ⟨m.code, 0, d.take n⟩ sad (.obj o2) (pre.getD false) (ver.getD true) (label.getD (str% "d")) := by
  have hnew : new H none none none none (some m.code) (some d) none none none = .ok ⟨m.code, 0, d.take n⟩ := by
    unfold new
    rw [if_pos (by simp)]
    have hvc : validateCode m.code = .ok () := by unfold validateCode; rw [if_pos (by simpa using hc)]
    simp only [hvc, Res.ok_bind]
    rw [new_digest hn, if_neg (by omega)]
  unfold verify
  simp only [hd, hnew]

end Keride.Saider
