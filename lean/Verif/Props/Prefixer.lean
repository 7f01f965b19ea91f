/-
C43: identifier prefixes (prefixer.rs). `H` stands for the hash functions.
-/
import Verif.Lemmas.Prefixer
import Verif.Props.Saider

namespace Keride.Props

open Spec Matter Saider

/-- The codes of identifiers that are a public key: non-transferable, then transferable. -/
def fixedKeys : List Str := [str% "B", str% "1AAA", str% "1AAI"]
def rotatableKeys : List Str := [str% "D", str% "1AAB", str% "1AAJ"]

/-- C43: a digest prefix derived from an inception event verifies, against the event it was derived from, with the
prefix filled in, and with the SAID filled in as well; with the `prefixed` check too once it is filled in. -/
theorem C43_digest (H : Hash) (chk : Bool) (o : List (Str × Value)) (allows : Option (List Str)) (code : Option Str) (m : M)
    (h : Prefixer.newWithKed H (.obj o) allows code = .ok m) (hc : m.code ∈ digests) :
    ∃ q, qb64 chk m = .ok q ∧ Matter.newWithQb64 q = .ok m ∧ Prefixer.verify H chk m (.obj o) none = .ok true ∧
      ∀ prefixed, Prefixer.verify H chk m (.obj (Value.insert (str% "i") (.str q) o)) prefixed = .ok true ∧
        Prefixer.verify H chk m (.obj (Value.insert (str% "d") (.str q) (Value.insert (str% "i") (.str q) o))) prefixed = .ok true := by
  have hc' := mem_digests.mp hc
  obtain ⟨raw, n, -, -, hd, hn, hl, hm, -⟩ := Prefixer.newWithKed_ok h
  obtain ⟨o', ilk, e, ht, hi⟩ := Prefixer.derive_ilk hd
  cases e
  rw [Prefixer.derive_digest_eq hc' ht hi] at hd
  obtain ⟨q, hq, hback⟩ := qb64_digest chk hn hl
  rw [← hm] at hq hback
  refine ⟨q, hq, hback, ?_, fun prefixed => ⟨?_, ?_⟩⟩
  · rw [Prefixer.verify_digest_eq hc' ht hi, hq, Res.ok_bind, Prefixer.verifyDigest_eq hc' hn hd hl, ← hm, hq, Res.ok_bind, if_neg (by simp)]
    rfl
  · have ht1 : Value.find (str% "t") (Value.insert (str% "i") (.str q) o) = some (.str ilk) := by rw [find_insert_ne (by decide)]; exact ht
    have hd1 : Prefixer.deriveDigest H (.obj (Value.insert (str% "i") (.str q) o)) m.code = .ok (raw, m.code) := by
      rw [Prefixer.deriveDigest_eq hc', Prefixer.blank2_i, ← Prefixer.deriveDigest_eq hc']
      exact hd
    rw [Prefixer.verify_digest_eq hc' ht1 hi, hq, Res.ok_bind, Prefixer.verifyDigest_eq hc' hn hd1 hl, ← hm, hq, Res.ok_bind, if_neg (by simp),
      Prefixer.badPrefix_ok (by rw [find_insert_self])]
    rfl
  · have hk : Value.hasKey (str% "i") (Value.insert (str% "i") (.str q) o) = true := by unfold Value.hasKey; rw [find_insert_self]; rfl
    have ht1 : Value.find (str% "t") (Value.insert (str% "d") (.str q) (Value.insert (str% "i") (.str q) o)) = some (.str ilk) := by
      rw [find_insert_ne (by decide), find_insert_ne (by decide)]; exact ht
    have hd1 : Prefixer.deriveDigest H (.obj (Value.insert (str% "d") (.str q) (Value.insert (str% "i") (.str q) o))) m.code = .ok (raw, m.code) := by
      rw [Prefixer.deriveDigest_eq hc', Prefixer.blank2_d _ _ _ hk, Prefixer.blank2_i, ← Prefixer.deriveDigest_eq hc']
      exact hd
    rw [Prefixer.verify_digest_eq hc' ht1 hi, hq, Res.ok_bind, Prefixer.verifyDigest_eq hc' hn hd1 hl, ← hm, hq, Res.ok_bind, if_neg (by simp),
      Prefixer.badPrefix_ok (by rw [find_insert_ne (by decide), find_insert_self])]
    rfl

/-- C43: which events have a digest prefix: inception events that start with a version string and are shorter than
16 MiB with the prefix filled in. -/
theorem C43_digest_accepts (H : Hash) (hH : HashOk H) (o : List (Str × Value)) (code ident ilk : Str) (size : Nat) (hc : code ∈ digests)
    (hi : ident ∈ protocols) (hs : size < 2 ^ 24) (hv : o.head? = some (str% "v", .str (versionText ident ⟨1, 0⟩ (str% "JSON") size)))
    (ht : field (str% "t") (.obj o) = some (.str ilk)) (hilk : ilk = str% "icp" ∨ ilk = str% "dip" ∨ ilk = str% "vcp")
    (hl : (toUtf8 (Value.obj (Prefixer.blank2 code o)).toJson).length < 2 ^ 24) :
    ∃ m, Prefixer.newWithKed H (.obj o) none (some code) = .ok m ∧ m.code = code := by
  have hc' := mem_digests.mp hc
  obtain ⟨n, hn, -⟩ := digest_rows code hc'
  have ht' : Value.find (str% "t") o = some (.str ilk) := by rw [← field_find]; exact ht
  have hilk' : ilk ∈ Prefixer.ilks := by simpa [Prefixer.ilks] using hilk
  have hvf : Value.find (str% "v") o = some (.str (versionText ident currentVersion (str% "JSON") size)) := by
    cases o with
    | nil => cases hv
    | cons e o =>
      obtain ⟨k, v⟩ := e
      simp only [List.head?_cons, Option.some.injEq, Prod.mk.injEq] at hv
      obtain ⟨rfl, rfl⟩ := hv
      simp [Value.find]
      rfl
  have hh : (Prefixer.blank2 code o).head?.map Prod.fst = some (str% "v") := by
    cases o with
    | nil => cases hv
    | cons e o =>
      obtain ⟨k, v⟩ := e
      simp only [List.head?_cons, Option.some.injEq, Prod.mk.injEq] at hv
      obtain ⟨rfl, rfl⟩ := hv
      simp [Prefixer.blank2, Value.insert]
  rw [toUtf8_length] at hl
  obtain ⟨q, hS⟩ := sizable_first (o := Prefixer.blank2 code o) (mem_protocols.mp hi) hs hh
    (by unfold Prefixer.blank2; rw [find_insert_ne (by decide), find_insert_ne (by decide)]; exact hvf) (by omega)
  have hd : Prefixer.derive H (.obj o) code = .ok (H code (sizeOut (Prefixer.blank2 code o) ident (str% "{\"v\":\"") q).raw, code) := by
    rw [Prefixer.derive_digest_eq hc' ht' hilk', Prefixer.deriveDigest_eq hc', sizeify_of rfl hS, Res.ok_bind]
  have hlen := hH code hc n hn (sizeOut (Prefixer.blank2 code o) ident (str% "{\"v\":\"") q).raw
  refine ⟨_, Prefixer.newWithKed_of (code := some code) rfl ?_ hd hn (by omega) (.inl rfl), rfl⟩
  unfold Prefixer.validateCode
  rw [if_pos]
  simp [hc']

/-- An inception-like event without prefix. -/
def exIcp : List (Str × Value) :=
  [(str% "v", .str (str% "KERI10JSON000000_")), (str% "t", .str (str% "icp")), (str% "d", .str []), (str% "i", .str []),
   (str% "s", .str (str% "0")), (str% "k", .arr [.str (str% "DAAAAAAAAAAAAAAAAAAAAAAAAAAAAAAAAAAAAAAAAAAA")])]

example : ∃ m, Prefixer.newWithKed exHash (.obj exIcp) none (some (str% "E")) = .ok m ∧ m.code = str% "E" :=
  C43_digest_accepts exHash exHash_ok exIcp (str% "E") (str% "KERI") (str% "icp") 0 (by decide) (by decide) (by decide) rfl
    (by simp [exIcp, field]) (by decide) (by decide +kernel)

/-- C43: a key prefix is accepted only when it is the event's single key, text for text; with the `prefixed` check
only when the event's `i` is it too. -/
theorem C43_sound (H : Hash) (chk : Bool) (m : M) (ked : Value) (prefixed : Option Bool) (h : Prefixer.verify H chk m ked prefixed = .ok true)
    (hc : m.code ∈ fixedKeys ++ rotatableKeys) :
    ∃ q, qb64 chk m = .ok q ∧ field (str% "k") ked = some (.arr [.str q]) ∧
      (prefixed = some true → field (str% "i") ked = some (.str q)) := by
  obtain ⟨o, ilk, rfl, ht, hi⟩ := Prefixer.verify_ilk h
  have key : ∀ q, Prefixer.keyCheck (.obj o) o q (prefixed.getD false) = .ok true →
      field (str% "k") (.obj o) = some (.arr [.str q]) ∧ (prefixed = some true → field (str% "i") (.obj o) = some (.str q)) := by
    intro q h
    unfold Prefixer.keyCheck at h
    split at h
    · cases h
    · obtain ⟨k, hk, h⟩ := Res.bind_eq_ok.mp h
      obtain ⟨ks, hks, h⟩ := Res.bind_eq_ok.mp h
      split at h
      · cases h
      · rename_i hlen
        obtain ⟨x, hx, h⟩ := Res.bind_eq_ok.mp h
        obtain ⟨s, hs, h⟩ := Res.bind_eq_ok.mp h
        split at h
        · cases h
        · rename_i hsq
          obtain ⟨bad, hbad, h⟩ := Res.bind_eq_ok.mp h
          have hsq := not_not.mp hsq
          have hlen := not_not.mp hlen
          have hbf : bad = false := by
            injection h with h
            simpa using h
          subst hbf
          rw [toStr_ok hs] at hx
          have hks' : k = .arr [.str q] := by
            cases k <;> cases hks
            cases ks with
            | nil => cases hlen
            | cons a l =>
              cases l with
              | nil =>
                cases hx
                rw [hsq]
              | cons b l => simp at hlen
          refine ⟨by rw [field_find, index_ok hk, hks'], ?_⟩
          rintro rfl
          unfold Prefixer.badPrefix at hbad
          rw [if_pos (show (some true).getD false = true from rfl)] at hbad
          split at hbad
          · cases hbad
          · obtain ⟨y, hy, hbad⟩ := Res.bind_eq_ok.mp hbad
            obtain ⟨t, ht, hbad⟩ := Res.bind_eq_ok.mp hbad
            have : t = q := by
              injection hbad with hbad
              simpa using hbad
            rw [field_find, index_ok hy, toStr_ok ht, this]
  unfold Prefixer.verify at h
  dsimp only at h
  rw [show (Value.obj o).index (str% "t") = .ok (.str ilk) by simp [Value.index, ht], Res.ok_bind,
    show (Value.str ilk).toStr = .ok ilk from rfl, Res.ok_bind, if_neg (by simpa using hi)] at h
  rw [List.mem_append] at hc
  rcases hc with hc | hc
  · have : Prefixer.nontrans.contains m.code = true := by simpa [Prefixer.nontrans, fixedKeys] using hc
    rw [if_pos this] at h
    obtain ⟨q, hq, h⟩ := Res.bind_eq_ok.mp h
    unfold Prefixer.verifyNontransferable at h
    rw [show (Value.obj o).toMap = .ok o from rfl, Res.ok_bind] at h
    obtain ⟨g, hg, h⟩ := Res.bind_eq_ok.mp h
    cases g with
    | false => cases h
    | true => exact ⟨q, hq, key q hg⟩
  · have h1 : Prefixer.trans.contains m.code = true := by simpa [Prefixer.trans, rotatableKeys] using hc
    have h0 : Prefixer.nontrans.contains m.code = false := by
      have : ∀ c ∈ rotatableKeys, Prefixer.nontrans.contains c = false := by decide
      exact this _ hc
    rw [h0, if_neg (by decide), if_pos h1] at h
    obtain ⟨q, hq, h⟩ := Res.bind_eq_ok.mp h
    exact ⟨q, hq, key q h⟩

/-- C43: a non-transferable prefix is not accepted for an event that commits to next keys. -/
theorem C43_no_rotation (H : Hash) (chk : Bool) (m : M) (ked : Value) (prefixed : Option Bool) (h : Prefixer.verify H chk m ked prefixed = .ok true)
    (hc : m.code ∈ fixedKeys) :
    (∀ x l, field (str% "n") ked ≠ some (.arr (x :: l))) ∧ (∀ c s, field (str% "n") ked ≠ some (.str (c :: s))) := by
  obtain ⟨o, ilk, rfl, ht, hi⟩ := Prefixer.verify_ilk h
  unfold Prefixer.verify at h
  dsimp only at h
  rw [show (Value.obj o).index (str% "t") = .ok (.str ilk) by simp [Value.index, ht], Res.ok_bind,
    show (Value.str ilk).toStr = .ok ilk from rfl, Res.ok_bind, if_neg (by simpa using hi)] at h
  have : Prefixer.nontrans.contains m.code = true := by simpa [Prefixer.nontrans, fixedKeys] using hc
  rw [if_pos this] at h
  obtain ⟨q, hq, h⟩ := Res.bind_eq_ok.mp h
  unfold Prefixer.verifyNontransferable at h
  rw [show (Value.obj o).toMap = .ok o from rfl, Res.ok_bind] at h
  obtain ⟨g, hg, h⟩ := Res.bind_eq_ok.mp h
  cases g with
  | false => cases h
  | true =>
    rw [if_neg (by decide)] at h
    rw [field_find]
    have idx : ∀ x, Value.find (str% "n") o = some x → (Value.obj o).index (str% "n") = .ok x ∧ Value.hasKey (str% "n") o = true := by
      intro x hx
      exact ⟨by simp [Value.index, hx], by unfold Value.hasKey; rw [hx]; rfl⟩
    constructor
    · intro x l hn
      obtain ⟨a, b⟩ := idx _ hn
      rw [if_pos b, a, Res.ok_bind] at h
      cases h
    · intro c s hn
      obtain ⟨a, b⟩ := idx _ hn
      rw [if_pos b, a, Res.ok_bind] at h
      cases h

/-- What the derivation of a key prefix needs. -/
theorem key_derived {H : Hash} {o : List (Str × Value)} {allows : Option (List Str)} {code : Option Str} {m : M}
    (h : Prefixer.newWithKed H (.obj o) allows code = .ok m) (hc : m.code ∈ fixedKeys ++ rotatableKeys) :
    ∃ t, Value.find (str% "k") o = some (.arr [.str t]) ∧
      (m.code ∈ fixedKeys → Value.find (str% "n") o = none ∨ Value.find (str% "n") o = some (.str [])) := by
  obtain ⟨raw, n, -, -, hd, hn, hl, hm, -⟩ := Prefixer.newWithKed_ok h
  obtain ⟨o', ilk, e, ht, hi⟩ := Prefixer.derive_ilk hd
  cases e
  have key : ∀ v, Prefixer.keyOf (.obj o) o m.code = .ok v → ∃ t, Value.find (str% "k") o = some (.arr [.str t]) := by
    intro v h
    unfold Prefixer.keyOf at h
    split at h
    · obtain ⟨k, hk, h⟩ := Res.bind_eq_ok.mp h
      obtain ⟨ks, hks, h⟩ := Res.bind_eq_ok.mp h
      split at h
      · cases h
      · rename_i hlen
        obtain ⟨x, hx, h⟩ := Res.bind_eq_ok.mp h
        obtain ⟨s, hs, h⟩ := Res.bind_eq_ok.mp h
        rw [toStr_ok hs] at hx
        have hlen := not_not.mp hlen
        refine ⟨s, ?_⟩
        rw [index_ok hk]
        cases k <;> cases hks
        cases ks with
        | nil => cases hlen
        | cons a l =>
          cases l with
          | nil => cases hx; rfl
          | cons b l => simp at hlen
    · cases h
  have empty : ∀ l u, Prefixer.emptyField (.obj o) o l = .ok u → Value.find l o = none ∨ Value.find l o = some (.str []) := by
    intro l u h
    unfold Prefixer.emptyField at h
    split at h
    · obtain ⟨x, hx, h⟩ := Res.bind_eq_ok.mp h
      obtain ⟨s, hs, h⟩ := Res.bind_eq_ok.mp h
      split at h
      · cases h
      · rename_i hne
        rw [not_not] at hne
        right
        rw [index_ok hx, toStr_ok hs, hne]
    · rename_i hk
      left
      unfold Value.hasKey at hk
      cases hf : Value.find l o with
      | none => rfl
      | some x => rw [hf] at hk; simp at hk
  unfold Prefixer.derive at hd
  rw [show (Value.obj o).index (str% "t") = .ok (.str ilk) by simp [Value.index, ht], Res.ok_bind,
    show (Value.str ilk).toStr = .ok ilk from rfl, Res.ok_bind, if_neg (by simpa using hi)] at hd
  rw [List.mem_append] at hc
  rcases hc with hc | hc
  · have : Prefixer.nontrans.contains m.code = true := by simpa [Prefixer.nontrans, fixedKeys] using hc
    rw [if_pos this] at hd
    unfold Prefixer.deriveNontransferable at hd
    rw [show (Value.obj o).toMap = .ok o from rfl, Res.ok_bind] at hd
    obtain ⟨v, hv, hd⟩ := Res.bind_eq_ok.mp hd
    obtain ⟨u, hu, hd⟩ := Res.bind_eq_ok.mp hd
    obtain ⟨t, hk⟩ := key v hv
    exact ⟨t, hk, fun _ => empty _ u hu⟩
  · have h1 : Prefixer.trans.contains m.code = true := by simpa [Prefixer.trans, rotatableKeys] using hc
    have h0 : Prefixer.nontrans.contains m.code = false ∧ m.code ∉ fixedKeys := by
      have : ∀ c ∈ rotatableKeys, Prefixer.nontrans.contains c = false ∧ c ∉ fixedKeys := by decide
      exact this _ hc
    rw [h0.1, if_neg (by decide), if_pos h1] at hd
    unfold Prefixer.deriveTransferable at hd
    rw [show (Value.obj o).toMap = .ok o from rfl, Res.ok_bind] at hd
    obtain ⟨v, hv, hd⟩ := Res.bind_eq_ok.mp hd
    obtain ⟨t, hk⟩ := key v hv
    exact ⟨t, hk, fun h => absurd h h0.2⟩

theorem keyCheck_eq {o : List (Str × Value)} {t q : Str} (hk : Value.find (str% "k") o = some (.arr [.str t])) (hi : Value.find (str% "i") o = some (.str q))
    (prefixed : Bool) : Prefixer.keyCheck (.obj o) o q prefixed = .ok (decide (t = q)) := by
  unfold Prefixer.keyCheck
  have hkk : Value.hasKey (str% "k") o = true := by unfold Value.hasKey; rw [hk]; rfl
  rw [hkk, if_neg (by decide), show (Value.obj o).index (str% "k") = .ok (.arr [.str t]) by simp [Value.index, hk], Res.ok_bind,
    show (Value.arr [.str t]).toVec = .ok [.str t] from rfl, Res.ok_bind, if_neg (by simp),
    show Res.orPanic [Value.str t].head? = .ok (.str t) from rfl, Res.ok_bind, show (Value.str t).toStr = .ok t from rfl, Res.ok_bind]
  by_cases h : t = q
  · rw [if_neg (by simpa using h), Prefixer.badPrefix_ok hi]
    simp [h]
  · rw [if_pos h]
    simp [h]

/-- C43, partial: a key prefix derived from an event verifies on the event with the prefix filled in exactly when the
text in `k` is the key's own text. Missing: the derivation also takes texts with characters after the key, which then
do not verify, see `C43_false`. -/
theorem C43_key_partial (H : Hash) (chk : Bool) (o : List (Str × Value)) (allows : Option (List Str)) (code : Option Str) (m : M)
    (h : Prefixer.newWithKed H (.obj o) allows code = .ok m) (hc : m.code ∈ fixedKeys ++ rotatableKeys) :
    ∃ q t, qb64 chk m = .ok q ∧ field (str% "k") (.obj o) = some (.arr [.str t]) ∧
      ∀ prefixed, Prefixer.verify H chk m (.obj (Value.insert (str% "i") (.str q) o)) prefixed = .ok (decide (t = q)) := by
  obtain ⟨t, hk, hn⟩ := key_derived h hc
  obtain ⟨raw, n, -, -, hd, hrow, hl, hm, -⟩ := Prefixer.newWithKed_ok h
  obtain ⟨o', ilk, e, ht, hi⟩ := Prefixer.derive_ilk hd
  cases e
  obtain ⟨q, hq, -⟩ := qb64_digest chk hrow hl
  rw [← hm] at hq
  refine ⟨q, t, hq, by rw [field_find]; exact hk, fun prefixed => ?_⟩
  have ht1 : Value.find (str% "t") (Value.insert (str% "i") (.str q) o) = some (.str ilk) := by rw [find_insert_ne (by decide)]; exact ht
  have hk1 : Value.find (str% "k") (Value.insert (str% "i") (.str q) o) = some (.arr [.str t]) := by rw [find_insert_ne (by decide)]; exact hk
  have hkc := keyCheck_eq hk1 (find_insert_self _ _ _) (prefixed.getD false)
  unfold Prefixer.verify
  dsimp only
  rw [show (Value.obj (Value.insert (str% "i") (.str q) o)).index (str% "t") = .ok (.str ilk) by simp only [Value.index, ht1]; rfl, Res.ok_bind,
    show (Value.str ilk).toStr = .ok ilk from rfl, Res.ok_bind, if_neg (by simpa using hi)]
  rw [List.mem_append] at hc
  rcases hc with hc | hc
  · have : Prefixer.nontrans.contains m.code = true := by simpa [Prefixer.nontrans, fixedKeys] using hc
    rw [if_pos this, hq, Res.ok_bind]
    unfold Prefixer.verifyNontransferable
    rw [show (Value.obj (Value.insert (str% "i") (.str q) o)).toMap = .ok (Value.insert (str% "i") (.str q) o) from rfl, Res.ok_bind, hkc, Res.ok_bind]
    by_cases htq : t = q
    · rw [decide_eq_true htq, if_neg (by decide)]
      have hn1 : Value.find (str% "n") (Value.insert (str% "i") (.str q) o) = Value.find (str% "n") o := find_insert_ne (by decide) _ _
      rcases hn hc with hn | hn
      · rw [if_neg]
        unfold Value.hasKey
        rw [hn1, hn]
        simp
      · rw [if_pos (by unfold Value.hasKey; rw [hn1, hn]; rfl),
          show (Value.obj (Value.insert (str% "i") (.str q) o)).index (str% "n") = .ok (.str []) by simp only [Value.index, hn1, hn]; rfl, Res.ok_bind]
        rfl
    · rw [decide_eq_false htq, if_pos (by decide)]
  · have h1 : Prefixer.trans.contains m.code = true := by simpa [Prefixer.trans, rotatableKeys] using hc
    have h0 : Prefixer.nontrans.contains m.code = false := by
      have : ∀ c ∈ rotatableKeys, Prefixer.nontrans.contains c = false := by decide
      exact this _ hc
    rw [h0, if_neg (by decide), if_pos h1, hq, Res.ok_bind]
    exact hkc

/-- The example has a key prefix that verifies. -/
example : (Prefixer.newWithKed exHash (.obj exIcp) none (some (str% "D")) >>= fun m => qb64 true m >>= fun q =>
    Prefixer.verify exHash true m (.obj (Value.insert (str% "i") (.str q) exIcp)) (some true)) = .ok true := by decide +kernel

/-- C43 is false: with a character after the key in `k`, a prefix is derived but does not verify on its own event; and
an event whose `n` is the empty list, which `verify` allows, has no non-transferable prefix. -/
theorem C43_false (chk : Bool) : ∃ H, HashOk H ∧
    (∃ o m q, Prefixer.newWithKed H (.obj o) none (some (str% "D")) = .ok m ∧ qb64 chk m = .ok q ∧
      Prefixer.verify H chk m (.obj (Value.insert (str% "i") (.str q) o)) none = .ok false) ∧
    (∃ o m q, Prefixer.newWithQb64 H q = .ok m ∧ Prefixer.verify H chk m (.obj o) (some true) = .ok true ∧
      (Prefixer.newWithKed H (.obj o) none (some (str% "B"))).isErr = true) := by
  refine ⟨exHash, exHash_ok, ?_, ?_⟩
  · refine ⟨[(str% "t", .str (str% "icp")), (str% "i", .str []), (str% "k", .arr [.str (str% "DAAAAAAAAAAAAAAAAAAAAAAAAAAAAAAAAAAAAAAAAAAAx")])],
      ⟨str% "D", 0, List.replicate 32 0⟩, str% "DAAAAAAAAAAAAAAAAAAAAAAAAAAAAAAAAAAAAAAAAAAA", by decide +kernel, by cases chk <;> decide +kernel,
      by cases chk <;> decide +kernel⟩
  · refine ⟨[(str% "t", .str (str% "icp")), (str% "i", .str (str% "BAAAAAAAAAAAAAAAAAAAAAAAAAAAAAAAAAAAAAAAAAAA")),
      (str% "k", .arr [.str (str% "BAAAAAAAAAAAAAAAAAAAAAAAAAAAAAAAAAAAAAAAAAAA")]), (str% "n", .arr [])],
      ⟨str% "B", 0, List.replicate 32 0⟩, str% "BAAAAAAAAAAAAAAAAAAAAAAAAAAAAAAAAAAAAAAAAAAA", by decide +kernel, by cases chk <;> decide +kernel,
      by decide +kernel⟩

/-- The fields that the prefix covers: all but the prefix, the SAID and the version string. -/
def covered (o : List (Str × Value)) : List (Str × Value) := o.filter fun e => e.1 ∉ [str% "i", str% "d", str% "v"]

theorem covered_insert {l : Str} (hl : l ∈ [str% "i", str% "d", str% "v"]) (x : Value) (o : List (Str × Value)) :
    covered (Value.insert l x o) = covered o := by
  have hl' : ¬ (decide (l ∉ [str% "i", str% "d", str% "v"]) = true) := fun h => of_decide_eq_true h hl
  unfold covered
  induction o with
  | nil =>
    rw [Value.insert, List.filter_cons_of_neg (by exact hl')]
  | cons e o ih =>
    obtain ⟨k, v⟩ := e
    rw [Value.insert]
    split
    · rename_i hk
      subst hk
      rw [List.filter_cons_of_neg (by exact hl'), List.filter_cons_of_neg (by exact hl')]
    · rw [List.filter_cons, List.filter_cons, ih]

/-- What is digested for a prefix: the event with the prefix and the SAID filled with `#`, and the size of that. -/
def PrefixText (code : Str) (o : List (Str × Value)) (text : Str) : Prop :=
  ∃ ident ∈ protocols, text = (Value.obj (sized ident (filled code (str% "d") (filled code (str% "i") o)))).toJson

/-- C43: a digest prefix binds the event: two events, each starting with its version string, that verify under the
same prefix agree on every other field and their order, or the texts digested for them are different and have the same digest. -/
theorem C43_tamper (H : Hash) (hH : HashOk H) (chk : Bool) (m : M) (o₁ o₂ : List (Str × Value)) (pf₁ pf₂ : Option Bool) (hc : m.code ∈ digests)
    (p₁ : Plain (.obj o₁)) (p₂ : Plain (.obj o₂)) (v₁ : o₁.head?.map Prod.fst = some (str% "v")) (v₂ : o₂.head?.map Prod.fst = some (str% "v"))
    (h₁ : Prefixer.verify H chk m (.obj o₁) pf₁ = .ok true) (h₂ : Prefixer.verify H chk m (.obj o₂) pf₂ = .ok true) :
    covered o₁ = covered o₂ ∨ Collision H m.code (PrefixText m.code o₁) (PrefixText m.code o₂) := by
  have hc' := mem_digests.mp hc
  obtain ⟨n, hn, -⟩ := digest_rows _ hc'
  have key : ∀ (o : List (Str × Value)) (pf : Option Bool), o.head?.map Prod.fst = some (str% "v") →
      Prefixer.verify H chk m (.obj o) pf = .ok true → ∃ vs, (Plain (.obj o) → PrefixText m.code o (Value.obj (Value.insert (str% "v") (.str vs) (Prefixer.blank2 m.code o))).toJson) ∧
      qb64 chk ⟨m.code, 0, H m.code (toUtf8 (Value.obj (Value.insert (str% "v") (.str vs) (Prefixer.blank2 m.code o))).toJson)⟩ = qb64 chk m := by
    intro o pf hv h
    obtain ⟨o', ilk, e, ht, hi⟩ := Prefixer.verify_ilk h
    cases e
    rw [Prefixer.verify_digest_eq hc' ht hi] at h
    obtain ⟨pre, hpre, h⟩ := Res.bind_eq_ok.mp h
    cases hd : Prefixer.deriveDigest H (.obj o) m.code with
    | panic => unfold Prefixer.verifyDigest at h; rw [hd] at h; cases h
    | err e => unfold Prefixer.verifyDigest at h; rw [hd] at h; cases h
    | ok d =>
      have hdd := hd
      rw [Prefixer.deriveDigest_eq hc'] at hdd
      obtain ⟨r, hr, hdd⟩ := Res.bind_eq_ok.mp hdd
      cases hdd
      obtain ⟨ob, ident, size, p, q, e, -, hS, rfl⟩ := sizeify_ok hr
      cases e
      have hb : (Prefixer.blank2 m.code o).head?.map Prod.fst = some (str% "v") := by
        cases o with
        | nil => cases hv
        | cons e o =>
          obtain ⟨k, v⟩ := e
          simp only [List.head?_cons, Option.map_some, Option.some.injEq] at hv
          subst hv
          simp [Prefixer.blank2, Value.insert]
      have hraw := (sizeOut_first hS hb).1
      have hlen := hH _ hc n hn (sizeOut (Prefixer.blank2 m.code o) ident p q).raw
      rw [Prefixer.verifyDigest_eq hc' hn hd (by omega)] at h
      obtain ⟨q', hq', h⟩ := Res.bind_eq_ok.mp h
      split at h
      · cases h
      · rename_i hqq
        rw [not_not] at hqq
        refine ⟨newVs (Prefixer.blank2 m.code o) ident, fun hp => ⟨ident, mem_protocols.mpr hS.1, ?_⟩, ?_⟩
        · have hkeys : Keys (Prefixer.blank2 m.code o) := keys_of (plain_insert (plain_insert hp))
          rw [insert_sized hkeys hS.key]
          unfold Prefixer.blank2
          rw [insert_filled (keys_of (plain_insert hp)), insert_filled (keys_of hp)]
        rw [hpre, ← hqq, ← hq', List.take_of_length_le (by omega), hraw]
        rfl
  obtain ⟨w₁, d₁, k₁⟩ := key o₁ pf₁ v₁ h₁
  obtain ⟨w₂, d₂, k₂⟩ := key o₂ pf₂ v₂ h₂
  rw [← k₂] at k₁
  have hl : ∀ b, (H m.code b).length = n := fun b => hH _ hc n hn b
  have he := fixed_text_inj (chk := chk) (by dsimp only; rw [hl]; exact hn) rfl (by dsimp only; rw [hl]; exact hn) rfl k₁
  have he : H m.code _ = H m.code _ := congrArg M.raw he
  by_cases hb : toUtf8 (Value.obj (Value.insert (str% "v") (.str w₁) (Prefixer.blank2 m.code o₁))).toJson =
      toUtf8 (Value.obj (Value.insert (str% "v") (.str w₂) (Prefixer.blank2 m.code o₂))).toJson
  · left
    have := toJson_inj (plain_insert (plain_insert (plain_insert p₁))) (plain_insert (plain_insert (plain_insert p₂))) (toUtf8_inj hb)
    have e : Value.insert (str% "v") (.str w₁) (Prefixer.blank2 m.code o₁) = Value.insert (str% "v") (.str w₂) (Prefixer.blank2 m.code o₂) := by
      injection this
    have e' := congrArg covered e
    rw [covered_insert (by decide), covered_insert (by decide)] at e'
    unfold Prefixer.blank2 at e'
    rw [covered_insert (by decide), covered_insert (by decide), covered_insert (by decide), covered_insert (by decide)] at e'
    exact e'
  · exact .inr ⟨_, _, d₁ p₁, d₂ p₂, fun e => hb (by rw [e]), he⟩

end Keride.Props
