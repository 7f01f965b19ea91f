/-
Lemmas about messages (sadder.rs).
-/
import Verif.Model.Sadder
import Verif.Lemmas.SaiderVerify

namespace Keride

open Spec Matter Saider

theorem utf8Size_one {c : Char} (h : c.toNat < 128) : c.utf8Size = 1 := by
  rw [Char.utf8Size_eq_one_iff]
  exact UInt32.le_iff_toNat_le.mpr (by have : c.val.toNat = c.toNat := rfl; rw [this]; simp; omega)

theorem escChar_byteLen (c : Char) : c.utf8Size ≤ Str.len (escChar c) := by
  by_cases h : c.toNat < 128
  · rw [utf8Size_one h]
    have h1 := escChar_len c
    have h2 := length_le_len (escChar c)
    omega
  · unfold escChar
    rw [if_neg (by rintro rfl; exact h (by decide)), if_neg (by rintro rfl; exact h (by decide)), if_neg (by omega), if_neg (by omega),
      if_neg (by omega), if_neg (by omega), if_neg (by omega), if_neg (by omega)]
    simp [Str.len]

theorem escStr_byteLen (s : Str) : s.len ≤ Str.len (escStr s) := by
  induction s with
  | nil => exact Nat.le_refl _
  | cons c s ih =>
    rw [escStr, len_append, Str.len]
    have := escChar_byteLen c
    omega

/-- The text of a digest is at least 44 characters long. -/
theorem digest_text {s : Str} {m : M} (h : Matter.newWithQb64 s = .ok m) (hc : m.code ∈ digestCodes) : 44 ≤ s.len := by
  obtain ⟨p⟩ := exfil_ok h
  have key : ∀ c ∈ digestCodes, ∀ z, sizage c = .ok z → z.fs ≠ u32Max ∧ 44 ≤ z.fs ∧ z.hs + z.ss = Str.len c := by
    intro c hc z hz
    have : ∀ c ∈ digestCodes, (sizage c >>= fun z => .ok (decide (z.fs ≠ u32Max ∧ 44 ≤ z.fs ∧ z.hs + z.ss = Str.len c))) = .ok true := by
      decide +kernel
    have := this c hc
    rw [hz, Res.ok_bind] at this
    simpa using this
  obtain ⟨h1, h2, h3⟩ := key _ hc _ p.row
  obtain ⟨e1, -, e3⟩ := p.fixed h1
  rw [p.split, len_append, len_append, len_append, p.len_body, e3]
  omega

theorem saiderOf_ok {s : Str} {m : M} (h : Sadder.saiderOf s = .ok m) : Matter.newWithQb64 s = .ok m ∧ m.code ∈ digestCodes := by
  unfold Sadder.saiderOf Saider.newWithQb64 Saider.new at h
  rw [if_neg (by simp), Res.bind_eq_ok] at h
  obtain ⟨m', h1, h⟩ := h
  rw [Res.bind_eq_ok] at h
  obtain ⟨u, h2, h⟩ := h
  cases h
  refine ⟨h1, ?_⟩
  unfold validateCode at h2
  split at h2
  · rename_i hc; simpa using hc
  · cases h2

theorem saiderOf_of {s : Str} {m : M} (h : Matter.newWithQb64 s = .ok m) (hc : m.code ∈ digestCodes) : Sadder.saiderOf s = .ok m := by
  unfold Sadder.saiderOf Saider.newWithQb64 Saider.new
  rw [if_neg (by simp)]
  have e : Matter.new none none none (some s) none = .ok m := h
  rw [e, Res.ok_bind]
  unfold validateCode
  rw [if_pos (by simpa using hc)]
  rfl

theorem saiderOf_hash (H : Hash) (s : Str) : Sadder.saiderOf s = Saider.newWithQb64 H s := by
  unfold Sadder.saiderOf Saider.newWithQb64 Saider.new
  rw [if_neg (by simp), if_neg (by simp)]

theorem finish_sad {code ident kind : Str} {raw : Bytes} {ked : Value} {size : Nat} {version : Version} {s : Sad} :
    Sadder.finish code raw ked ident kind size version = .ok s ↔
      ∃ o t m, ked = .obj o ∧ Value.find (str% "d") o = some (.str t) ∧ Sadder.saiderOf t = .ok m ∧ m.code = code ∧
        s = ⟨code, raw, ked, ident, kind, size, version, m⟩ := by
  unfold Sadder.finish
  constructor
  · intro h
    rw [Res.bind_eq_ok] at h
    obtain ⟨d, hd, h⟩ := h
    rw [Res.bind_eq_ok] at h
    obtain ⟨t, ht, h⟩ := h
    rw [Res.bind_eq_ok] at h
    obtain ⟨m, hm, h⟩ := h
    rw [toStr_ok ht] at hd
    split at h
    · cases h
    · rename_i hc
      cases h
      cases ked with
      | obj o => exact ⟨o, t, m, rfl, index_ok hd, hm, by simpa using (not_not.mp hc).symm, rfl⟩
      | _ => cases hd
  · rintro ⟨o, t, m, rfl, hf, hm, hc, rfl⟩
    rw [show (Value.obj o).index (str% "d") = .ok (.str t) by simp [Value.index, hf], Res.ok_bind,
      show (Value.str t).toStr = .ok t from rfl, Res.ok_bind, hm, Res.ok_bind, if_neg (by simp [hc])]

theorem find_len {o : List (Str × Value)} {k t : Str} (h : Value.find k o = some (.str t)) : t.len ≤ (Value.obj o).toJson.len := by
  have hk : Value.hasKey k o = true := by unfold Value.hasKey; rw [h]; rfl
  obtain ⟨A, B, hAB, -⟩ := toJson_hole hk
  have := hAB t
  rw [insert_find_self h] at this
  rw [this, len_append, len_append]
  have := escStr_byteLen t
  omega

/-- A message `populate_from_ked` wrote. -/
theorem populateFromKed_ok {code : Str} {ked : Value} {kind : Option Str} {s : Sad} (h : Sadder.populateFromKed code ked kind = .ok s) :
    ∃ o ident size p q t, ked = .obj o ∧ kind.getD (str% "JSON") = str% "JSON" ∧ Sizable o ident size p q ∧
      Value.find (str% "d") o = some (.str t) ∧ Sadder.saiderOf t = .ok s.saider ∧ s.saider.code = code ∧
      s = ⟨code, (sizeOut o ident p q).raw, (sizeOut o ident p q).ked, ident, str% "JSON", (Value.obj o).toJson.len % 2 ^ 32,
        currentVersion, s.saider⟩ ∧ 44 ≤ (Value.obj o).toJson.len := by
  unfold Sadder.populateFromKed at h
  rw [Res.bind_eq_ok] at h
  obtain ⟨r, hr, h⟩ := h
  obtain ⟨o, ident, size, p, q, rfl, hk, hs, rfl⟩ := sizeify_ok hr
  obtain ⟨o', t, m, e, hf, hm, hc, rfl⟩ := finish_sad.mp h
  cases e
  rw [find_insert_ne (by decide)] at hf
  refine ⟨o, ident, size, p, q, t, rfl, hk, hs, hf, hm, hc, ?_, ?_⟩
  · rw [sizeOut_len hs]; rfl
  · have h1 := find_len hf
    obtain ⟨h2, h3⟩ := saiderOf_ok hm
    have := digest_text h2 h3
    omega

theorem populateFromKed_of {o : List (Str × Value)} {code ident p q t : Str} {size : Nat} {m : M} (hs : Sizable o ident size p q)
    (hf : Value.find (str% "d") o = some (.str t)) (hm : Sadder.saiderOf t = .ok m) (hc : m.code = code) :
    Sadder.populateFromKed code (.obj o) none = .ok ⟨code, (sizeOut o ident p q).raw, (sizeOut o ident p q).ked, ident, str% "JSON",
      (Value.obj o).toJson.len % 2 ^ 32, currentVersion, m⟩ := by
  unfold Sadder.populateFromKed
  rw [sizeify_of rfl hs, Res.ok_bind]
  refine finish_sad.mpr ⟨_, t, m, rfl, ?_, hm, hc, ?_⟩
  · rw [find_insert_ne (by decide)]; exact hf
  · rw [sizeOut_len hs]; rfl

end Keride

namespace Keride

open Spec Matter Saider

theorem findVs_prefix {s u p q : Str} (h : findVs (s ++ u) = some (p, q)) (hl : p.length + 17 ≤ s.length) :
    ∃ q', findVs s = some (p, q') ∧ q = q' ++ u := by
  obtain ⟨h1, h2, h3⟩ := findVs_some.mp h
  have hp : s = p ++ s.drop p.length := by
    have : (s ++ u).take p.length = p := by rw [h1, List.take_left]
    rw [List.take_append_of_le_length (by omega)] at this
    conv_lhs => rw [← List.take_append_drop p.length s, this]
  have hq : q = s.drop p.length ++ u := by
    have h1' := h1
    rw [hp, List.append_assoc] at h1'
    exact (List.append_cancel_left h1').symm
  refine ⟨s.drop p.length, findVs_some.mpr ⟨hp, ?_, ?_⟩, hq⟩
  · rw [vsAt_congr (t := q)]
    · exact h2
    · rw [hq, List.take_append_of_le_length (by rw [List.length_drop]; omega)]
  · intro i hi
    rw [vsAt_congr (t := (s ++ u).drop i)]
    · exact h3 i hi
    · rw [List.drop_append_of_le_length (by omega), List.take_append_of_le_length (by rw [List.length_drop]; omega)]

theorem utf8_prefix {s t : Str} {b : Bytes} (h : toUtf8 s = toUtf8 t ++ b) : ∃ u, s = t ++ u ∧ b = toUtf8 u := by
  have h1 := fromUtf8_append t b
  rw [← h, fromUtf8_toUtf8] at h1
  obtain ⟨u, h2, h3⟩ := Res.bind_eq_ok.mp h1.symm
  exact ⟨u, by injection h3 with h3; exact h3.symm, fromUtf8_ok h2⟩

theorem prefix_len {s t u v : Str} (h : s ++ t = u ++ v) (hl : s.length < u.length) : s.len < u.len := by
  have : u = s ++ u.drop s.length := by
    have e : (u ++ v).take s.length = s := by rw [← h, List.take_left]
    rw [List.take_append_of_le_length (by omega)] at e
    conv_lhs => rw [← List.take_append_drop s.length u, e]
  rw [this, len_append]
  have := length_le_len (u.drop s.length)
  rw [List.length_drop] at this
  omega

/-- `sniff` of the beginning of a message. -/
theorem sniff_cut {o : List (Str × Value)} {ident p q : Str} {size : Nat} (h : Sizable o ident size p q) {k : Nat}
    (hk : k ≤ (sizeOut o ident p q).raw.length) :
    sniff ((sizeOut o ident p q).raw.take k) =
      if 29 ≤ k then fromUtf8 ((sizeOut o ident p q).raw.take k) >>= fun _ =>
        .ok ⟨ident, str% "JSON", currentVersion, (sizeOut o ident p q).raw.length % 2 ^ 32⟩
      else .err .value := by
  have hl : ((sizeOut o ident p q).raw.take k).length = k := by rw [List.length_take]; omega
  by_cases h29 : 29 ≤ k
  · rw [if_pos h29]
    cases hu : fromUtf8 ((sizeOut o ident p q).raw.take k) with
    | panic => exact absurd hu (fromUtf8_ne_panic _)
    | err e =>
      unfold sniff
      rw [if_neg (by omega), hu]
      rfl
    | ok t =>
      rw [Res.ok_bind]
      have ht := fromUtf8_ok hu
      have hraw : (sizeOut o ident p q).raw = toUtf8 (p ++ (newVs o ident ++ q.drop 17)) := rfl
      obtain ⟨u, hs, -⟩ := utf8_prefix (s := p ++ (newVs o ident ++ q.drop 17)) (t := t) (b := (sizeOut o ident p q).raw.drop k) (by
        rw [← hraw, ← ht, List.take_append_drop])
      have htl : t.len = k := by rw [← toUtf8_length, ← ht, hl]
      have hlen : p.length + 17 ≤ t.length := by
        by_contra hc
        have e : t ++ u = (p ++ newVs o ident) ++ q.drop 17 := by rw [← hs, List.append_assoc]
        have := prefix_len e (by rw [List.length_append, newVs_len o h.1]; omega)
        rw [len_append, newVs_byteLen h] at this
        have := h.2.2.2.2.1
        omega
      have hf := sizeOut_find h
      rw [hs] at hf
      obtain ⟨q', hf', hq'⟩ := findVs_prefix hf hlen
      obtain ⟨g1, -, -⟩ := findVs_some.mp hf'
      have hq17 : 17 ≤ q'.length := by
        have := congrArg List.length g1
        rw [List.length_append] at this
        omega
      have hq2 : q' = newVs o ident ++ q'.drop 17 := by
        have e : (newVs o ident ++ q.drop 17).take 17 = (q' ++ u).take 17 := by rw [hq']
        rw [List.take_append_of_le_length (by rw [newVs_len o h.1]), List.take_of_length_le (by rw [newVs_len o h.1]),
          List.take_append_of_le_length hq17] at e
        conv_lhs => rw [← List.take_append_drop 17 q', ← e]
      rw [hq2] at hf'
      have := sniff_text (b := (sizeOut o ident p q).raw.take k) h.1 json_serial (fits_current h.2.2.2.2.2) (by omega) hu hf' h.2.2.2.2.1
      rw [this, sizeOut_len h]
  · rw [if_neg h29]
    unfold sniff
    rw [if_pos (by omega)]

theorem nestingObj_insert {k s : Str} {o : List (Str × Value)} : nestingObj (Value.insert k (.str s) o) ≤ nestingObj o := by
  induction o with
  | nil => simp [Value.insert, nestingObj, nesting]
  | cons e o ih =>
    obtain ⟨k', v⟩ := e
    rw [Value.insert]
    split
    · simp [nestingObj, nesting]
    · simp only [nestingObj]; omega

theorem proper_insert {F : Str → Prop} {l s : Str} {o : List (Str × Value)} (h : Proper F (.obj o)) : Proper F (.obj (Value.insert l (.str s) o)) := by
  simp only [Proper] at h ⊢
  exact ⟨insert_nodup h.1, insert_proper (by simp [Proper]) h.2⟩

/-- Reading back a message. -/
theorem populate_back {fl : Str → Option Str} {F : Str → Prop} (hF : ∀ t, F t → FloatOk fl t) {code : Str} {o : List (Str × Value)} {kind : Option Str}
    {s : Sad} (h : Sadder.populateFromKed code (.obj o) kind = .ok s) (hlen : s.raw.length < 2 ^ 32)
    (hp : Proper F (.obj o)) (hd : nesting (.obj o) ≤ 127) (hraw : s.raw = toUtf8 s.ked.toJson) (rest : Str) :
    Sadder.populateFromRaw fl code (s.raw ++ toUtf8 rest) = .ok s := by
  obtain ⟨o', ident, size, p, q, t, e, hk, hs, hf, hm, hc, hS, h44⟩ := populateFromKed_ok h
  cases e
  have hr : s.raw = (sizeOut o ident p q).raw := by rw [hS]
  have hked : s.ked = .obj (Value.insert (str% "v") (.str (newVs o ident)) o) := by rw [hS]; rfl
  have hl := sizeOut_len hs
  rw [hr] at hlen
  unfold Sadder.populateFromRaw Sadder.inhale
  rw [hr, sniff_sizeify hs, if_pos (by rw [List.length_append]; omega), fromUtf8_toUtf8, Res.ok_bind, Res.ok_bind]
  dsimp only
  rw [if_neg (by simp), Nat.mod_eq_of_lt hlen]
  have hsl : Bytes.sliceTo ((sizeOut o ident p q).raw ++ toUtf8 rest) (sizeOut o ident p q).raw.length = .ok (sizeOut o ident p q).raw := by
    unfold Bytes.sliceTo
    rw [if_pos (by simp), List.take_left]
  unfold loads
  rw [if_pos (show (some (str% "JSON")).getD (str% "JSON") = str% "JSON" from rfl)]
  dsimp only
  rw [hsl, Res.ok_bind, ← hr, hraw, fromUtf8_toUtf8, Res.ok_bind]
  have hj : jsonRead fl s.ked.toJson = .ok s.ked := by
    rw [hked]
    apply jsonRead_json hF (proper_insert hp)
    have := nestingObj_insert (k := str% "v") (s := newVs o ident) (o := o)
    simp only [nesting] at hd ⊢
    omega
  rw [hj, Res.ok_bind, Res.ok_bind, ← hraw, hr, hsl, Res.ok_bind]
  refine finish_sad.mpr ⟨_, t, s.saider, hked, ?_, hm, hc, ?_⟩
  · rw [find_insert_ne (by decide)]; exact hf
  · rw [hS, hl, ← hl, Nat.mod_eq_of_lt hlen]

end Keride
