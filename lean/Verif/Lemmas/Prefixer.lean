/-
Lemmas about identifier prefixes (prefixer.rs).
-/
import Verif.Model.Prefixer
import Verif.Lemmas.Signing

namespace Keride.Prefixer

open Spec Matter Saider

theorem basic_rows : ∀ c ∈ nontrans ++ trans, ∃ n, (c, n) ∈ fixedCodes := by
  have key : ∀ c ∈ nontrans ++ trans, ∃ e ∈ fixedCodes, e.1 = c := by decide
  intro c hc
  obtain ⟨e, h1, h2⟩ := key c hc
  exact ⟨e.2, by rw [← h2]; exact h1⟩

theorem derive_code {H : Hash} {ked : Value} {code : Str} {p : Bytes × Str} (h : derive H ked code = .ok p) : p.2 = code := by
  have kc : ∀ {map : List (Str × Value)} {v : M}, keyOf ked map code = .ok v → v.code = code := by
    intro map v h
    unfold keyOf at h
    split at h
    · obtain ⟨k, -, h⟩ := Res.bind_eq_ok.mp h
      obtain ⟨ks, -, h⟩ := Res.bind_eq_ok.mp h
      split at h
      · cases h
      · obtain ⟨x, -, h⟩ := Res.bind_eq_ok.mp h
        obtain ⟨s, -, h⟩ := Res.bind_eq_ok.mp h
        obtain ⟨w, -, h⟩ := Res.bind_eq_ok.mp h
        split at h
        · cases h
        · rename_i hc
          cases h
          exact not_not.mp hc
    · cases h
  unfold derive at h
  obtain ⟨t, -, h⟩ := Res.bind_eq_ok.mp h
  obtain ⟨ilk, -, h⟩ := Res.bind_eq_ok.mp h
  split at h
  · cases h
  · split at h
    · unfold deriveNontransferable at h
      obtain ⟨m, -, h⟩ := Res.bind_eq_ok.mp h
      obtain ⟨v, hv, h⟩ := Res.bind_eq_ok.mp h
      obtain ⟨_, -, h⟩ := Res.bind_eq_ok.mp h
      obtain ⟨_, -, h⟩ := Res.bind_eq_ok.mp h
      obtain ⟨_, -, h⟩ := Res.bind_eq_ok.mp h
      cases h
      exact kc hv
    · split at h
      · unfold deriveTransferable at h
        obtain ⟨m, -, h⟩ := Res.bind_eq_ok.mp h
        obtain ⟨v, hv, h⟩ := Res.bind_eq_ok.mp h
        cases h
        exact kc hv
      · split at h
        · unfold deriveDigest at h
          obtain ⟨z, -, h⟩ := Res.bind_eq_ok.mp h
          obtain ⟨k1, -, h⟩ := Res.bind_eq_ok.mp h
          obtain ⟨k2, -, h⟩ := Res.bind_eq_ok.mp h
          obtain ⟨r, -, h⟩ := Res.bind_eq_ok.mp h
          obtain ⟨d, -, h⟩ := Res.bind_eq_ok.mp h
          cases h
          rfl
        · cases h

theorem validate_row {c : Str} (h : validateCode c = .ok ()) : ∃ n, (c, n) ∈ fixedCodes := by
  unfold validateCode at h
  split at h
  · rename_i hc
    simp only [Bool.or_eq_true, List.contains_iff_mem] at hc
    rcases hc with (hc | hc) | hc
    · exact basic_rows c (List.mem_append_left _ hc)
    · exact basic_rows c (List.mem_append_right _ hc)
    · obtain ⟨n, hn, -⟩ := digest_rows c hc
      exact ⟨n, hn⟩
  · cases h

theorem newWithKed_ok {H : Hash} {ked : Value} {allows : Option (List Str)} {code : Option Str} {m : M} (h : newWithKed H ked allows code = .ok m) :
    ∃ raw n, codeOf ked code = .ok m.code ∧ validateCode m.code = .ok () ∧ derive H ked m.code = .ok (raw, m.code) ∧ (m.code, n) ∈ fixedCodes ∧
      n ≤ raw.length ∧ m = ⟨m.code, 0, raw.take n⟩ ∧ (allows.getD [] = [] ∨ m.code ∈ allows.getD []) := by
  unfold newWithKed new at h
  rw [if_neg (by simp)] at h
  dsimp only at h
  obtain ⟨c, hc, h⟩ := Res.bind_eq_ok.mp h
  obtain ⟨u, hv, h⟩ := Res.bind_eq_ok.mp h
  split at h
  · cases h
  · rename_i ha
    obtain ⟨p, hp, hx⟩ := Res.bind_eq_ok.mp h
    clear h
    obtain ⟨raw, c'⟩ := p
    have e := derive_code hp
    dsimp only at e hx
    subst e
    obtain ⟨n, hn⟩ := validate_row hv
    change newWithCodeAndRaw c' raw = _ at hx
    rw [new_fixed hn] at hx
    split at hx
    · cases hx
    · rename_i hl
      cases hx
      refine ⟨raw, n, hc, hv, hp, hn, by omega, rfl, ?_⟩
      by_cases he : allows.getD [] = []
      · exact .inl he
      · right
        by_contra hn
        exact ha ⟨he, by simpa using hn⟩

theorem newWithKed_of {H : Hash} {ked : Value} {allows : Option (List Str)} {code : Option Str} {c : Str} {raw : Bytes} {n : Nat}
    (h1 : codeOf ked code = .ok c) (h2 : validateCode c = .ok ()) (h3 : derive H ked c = .ok (raw, c)) (hn : (c, n) ∈ fixedCodes) (hl : n ≤ raw.length)
    (ha : allows.getD [] = [] ∨ c ∈ allows.getD []) : newWithKed H ked allows code = .ok ⟨c, 0, raw.take n⟩ := by
  unfold newWithKed new
  rw [if_neg (by simp)]
  dsimp only
  rw [h1, Res.ok_bind, h2, Res.ok_bind, if_neg, h3, Res.ok_bind]
  · change newWithCodeAndRaw c raw = _
    rw [new_fixed hn, if_neg (by omega)]
  · rintro ⟨h, h'⟩
    rcases ha with ha | ha
    · exact h ha
    · simp at h'
      exact h' ha

/-- The event with its prefix and SAID filled with `#`. -/
def blank2 (c : Str) (o : List (Str × Value)) : List (Str × Value) :=
  Value.insert (str% "d") (.str (dummy (saidChars c))) (Value.insert (str% "i") (.str (dummy (saidChars c))) o)

theorem deriveDigest_eq {H : Hash} {o : List (Str × Value)} {c : Str} (hc : c ∈ digestCodes) :
    deriveDigest H (.obj o) c = sizeify (.obj (blank2 c o)) none >>= fun r => .ok (H c r.raw, c) := by
  obtain ⟨n, -, hz⟩ := digest_rows c hc
  unfold deriveDigest
  rw [hz, Res.ok_bind]
  change (sizeify (.obj (blank2 c o)) none >>= fun r => hashDigest H c r.raw >>= fun dig => .ok (dig, c)) = _
  congr 1
  funext r
  unfold hashDigest
  rw [if_pos (by simpa using hc)]
  rfl

theorem blank2_i (c x : Str) (o : List (Str × Value)) : blank2 c (Value.insert (str% "i") (.str x) o) = blank2 c o := by
  unfold blank2
  rw [insert_insert]

theorem blank2_d (c x : Str) (o : List (Str × Value)) (hi : Value.hasKey (str% "i") o = true) :
    blank2 c (Value.insert (str% "d") (.str x) o) = blank2 c o := by
  unfold blank2
  rw [← insert_comm (by decide) _ _ hi, insert_insert]

theorem codes_disjoint : ∀ c ∈ digestCodes, nontrans.contains c = false ∧ trans.contains c = false := by decide

theorem verify_digest_eq {H : Hash} {chk : Bool} {m : M} {o : List (Str × Value)} {prefixed : Option Bool} (hc : m.code ∈ digestCodes)
    {ilk : Str} (ht : Value.find (str% "t") o = some (.str ilk)) (hi : ilk ∈ ilks) :
    verify H chk m (.obj o) prefixed = qb64 chk m >>= fun pre => verifyDigest H chk (.obj o) pre (prefixed.getD false) m.code := by
  obtain ⟨h1, h2⟩ := codes_disjoint _ hc
  unfold verify
  dsimp only
  rw [show (Value.obj o).index (str% "t") = .ok (.str ilk) by simp [Value.index, ht], Res.ok_bind,
    show (Value.str ilk).toStr = .ok ilk from rfl, Res.ok_bind, if_neg (by simpa using hi), h1, if_neg (by decide), h2, if_neg (by decide),
    if_pos (by simpa using hc)]

theorem derive_ilk {H : Hash} {ked : Value} {c : Str} {p : Bytes × Str} (h : derive H ked c = .ok p) :
    ∃ o ilk, ked = .obj o ∧ Value.find (str% "t") o = some (.str ilk) ∧ ilk ∈ ilks := by
  unfold derive at h
  obtain ⟨t, ht, h⟩ := Res.bind_eq_ok.mp h
  obtain ⟨ilk, hi, h⟩ := Res.bind_eq_ok.mp h
  split at h
  · cases h
  · rename_i hm
    rw [toStr_ok hi] at ht
    cases ked with
    | obj o => exact ⟨o, ilk, rfl, index_ok ht, by simpa using hm⟩
    | _ => cases ht

theorem verify_ilk {H : Hash} {chk : Bool} {m : M} {ked : Value} {prefixed : Option Bool} {b : Bool} (h : verify H chk m ked prefixed = .ok b) :
    ∃ o ilk, ked = .obj o ∧ Value.find (str% "t") o = some (.str ilk) ∧ ilk ∈ ilks := by
  unfold verify at h
  dsimp only at h
  obtain ⟨t, ht, h⟩ := Res.bind_eq_ok.mp h
  obtain ⟨ilk, hi, h⟩ := Res.bind_eq_ok.mp h
  split at h
  · cases h
  · rename_i hm
    rw [toStr_ok hi] at ht
    cases ked with
    | obj o => exact ⟨o, ilk, rfl, index_ok ht, by simpa using hm⟩
    | _ => cases ht

theorem derive_digest_eq {H : Hash} {o : List (Str × Value)} {c : Str} (hc : c ∈ digestCodes) {ilk : Str}
    (ht : Value.find (str% "t") o = some (.str ilk)) (hi : ilk ∈ ilks) : derive H (.obj o) c = deriveDigest H (.obj o) c := by
  obtain ⟨h1, h2⟩ := codes_disjoint _ hc
  unfold derive
  rw [show (Value.obj o).index (str% "t") = .ok (.str ilk) by simp [Value.index, ht], Res.ok_bind,
    show (Value.str ilk).toStr = .ok ilk from rfl, Res.ok_bind, if_neg (by simpa using hi), h1, if_neg (by decide), h2, if_neg (by decide),
    if_pos (by simpa using hc)]

theorem badPrefix_ok {o : List (Str × Value)} {q : Str} (h : Value.find (str% "i") o = some (.str q)) (prefixed : Bool) :
    badPrefix (.obj o) o q prefixed = .ok false := by
  unfold badPrefix
  cases prefixed with
  | false => rfl
  | true =>
    have hk : Value.hasKey (str% "i") o = true := by unfold Value.hasKey; rw [h]; rfl
    rw [if_pos rfl, hk, if_neg (by decide), show (Value.obj o).index (str% "i") = .ok (.str q) by simp [Value.index, h], Res.ok_bind,
      show (Value.str q).toStr = .ok q from rfl, Res.ok_bind]
    simp

theorem verifyDigest_eq {H : Hash} {chk : Bool} {o : List (Str × Value)} {pre c : Str} {prefixed : Bool} {d : Bytes} {n : Nat} (hc : c ∈ digestCodes)
    (hn : (c, n) ∈ fixedCodes) (hd : deriveDigest H (.obj o) c = .ok (d, c)) (hl : n ≤ d.length) :
    verifyDigest H chk (.obj o) pre prefixed c = qb64 chk ⟨c, 0, d.take n⟩ >>= fun q =>
      if q ≠ pre then .ok false else badPrefix (.obj o) o pre prefixed >>= fun bad => .ok (!bad) := by
  unfold verifyDigest
  rw [hd, Res.ok_bind]
  have e : Diger.new H none (some (d, c).2) (some (d, c).1) none none none = .ok ⟨c, 0, d.take n⟩ := by
    unfold Diger.new
    have e1 : Matter.new (some c) (some d) none none none = .ok ⟨c, 0, d.take n⟩ := by
      change newWithCodeAndRaw c d = _
      rw [new_fixed hn, if_neg (by omega)]
    dsimp only
    rw [e1]
    dsimp only
    unfold Diger.validateCode
    rw [if_pos (by simpa using hc)]
    rfl
  rw [e, Res.ok_bind]
  rfl

end Keride.Prefixer
