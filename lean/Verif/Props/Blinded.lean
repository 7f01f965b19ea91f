/-
C125: private credentials are blinded.
-/
import Verif.Props.Credential
import Verif.Lemmas.WorldTel
import Verif.Props.Matter
import Verif.Spec.Blinded

namespace Keride.Props

open Matter Spec Sample Saider

/-- What `create_ok` says, and where the blinding texts come from. -/
theorem create_blinds {E : Env} {S : Stretch} {rnd : Nat → Nat} {now schema issuer : Str} {data : Value} {recipient : Option Str} {priv : Option Bool}
    {salt status : Option Str} {source rules : Option Value} {version : Option Version} {kind : Option Str} {c : Sad}
    (h : createAcdc E S rnd now schema issuer data recipient priv salt status source rules version kind = .ok c) :
    ∃ vs u u' map a, data = .obj map ∧
      (priv ≠ some true → u = none ∧ u' = none) ∧
      (priv = some true → ∃ x y, blinding E S (rnd 0) salt = .ok x ∧ blinding E S (rnd 1) salt = .ok y ∧ u = some x ∧ u' = some y) ∧
      Saider.saidify E.H E.chk (.obj (subjectDoc u' recipient now map)) none (some (kind.getD (str% "JSON"))) (some (str% "d")) none = .ok a ∧
      BuiltAs (str% "ACDC") E.H E.chk (credDoc vs u issuer status schema a.2 source rules) c := by
  unfold createAcdc at h
  dsimp only at h
  obtain ⟨vs, -, h⟩ := Res.bind_eq_ok.mp h
  obtain ⟨bl, hbl, h⟩ := Res.bind_eq_ok.mp h
  obtain ⟨map, hmap, h⟩ := Res.bind_eq_ok.mp h
  obtain ⟨a, ha, h⟩ := Res.bind_eq_ok.mp h
  obtain ⟨r, hr, h⟩ := Res.bind_eq_ok.mp h
  have hdata : data = .obj map := by
    cases data <;> cases hmap
    rfl
  have hpriv : (priv ≠ some true → bl = none) ∧
      (priv = some true → ∃ x y, blinding E S (rnd 0) salt = .ok x ∧ blinding E S (rnd 1) salt = .ok y ∧ bl = some (x, y)) := by
    by_cases hp : priv = some true
    · subst hp
      rw [show (some true).getD false = true from rfl, if_pos rfl] at hbl
      obtain ⟨x, hx, hbl⟩ := Res.bind_eq_ok.mp hbl
      obtain ⟨y, hy, hbl⟩ := Res.bind_eq_ok.mp hbl
      cases hbl
      exact ⟨fun h => absurd rfl h, fun _ => ⟨x, y, hx, hy, rfl⟩⟩
    · have : priv.getD false = false := by
        cases priv with
        | none => rfl
        | some b => cases b with
          | false => rfl
          | true => exact absurd rfl hp
      rw [this] at hbl
      cases hbl
      exact ⟨fun _ => rfl, fun h => absurd h hp⟩
  obtain ⟨h1, h2⟩ := creder_ked.mp h
  refine ⟨vs, bl.map Prod.fst, bl.map Prod.snd, map, a, hdata, ?_, ?_, ?_, ?_⟩
  · intro hp
    rw [hpriv.1 hp]
    exact ⟨rfl, rfl⟩
  · intro hp
    obtain ⟨x, y, hx, hy, rfl⟩ := hpriv.2 hp
    exact ⟨x, y, hx, hy, rfl, rfl⟩
  · rw [← ha]
    unfold subjectDoc
    cases bl <;> cases recipient <;> simp [entry, Value.insert]
  · refine built_as (o := credDoc vs (bl.map Prod.fst) issuer status schema a.2 source rules) ?_ h1 h2 rfl
    rw [← hr]
    congr 2
    cases bl <;> cases status <;> cases source <;> cases rules <;> rfl

/-- A random blinding text is a salt with the bytes drawn. -/
theorem blinding_salt {E : Env} {S : Stretch} {n : Nat} {t : Str} (hS : (S.fill n).length = 16) (h : blinding E S n none = .ok t) :
    ∃ m, Matter.newWithQb64 t = .ok m ∧ m.code = str% "0A" ∧ m.raw = S.fill n := by
  unfold blinding at h
  dsimp only at h
  obtain ⟨s, hs, h⟩ := Res.bind_eq_ok.mp h
  unfold Salter.new at hs
  dsimp only [Option.getD_none] at hs
  rw [show Salter.validateCode (str% "0A") = .ok () from rfl, Res.ok_bind] at hs
  obtain ⟨m, hm, hs⟩ := Res.bind_eq_ok.mp hs
  cases hs
  have hm' : newWithCodeAndRaw (str% "0A") (S.fill n) = .ok m := hm
  obtain ⟨q, h1, h2, -⟩ := C03_qb64_roundtrip E.chk _ _ m (by decide) hm'
  have h : qb64 E.chk m = .ok t := h
  rw [h1] at h
  cases h
  refine ⟨m, h2, ?_⟩
  rcases new_cases hm' with ⟨f, t, -, -, -, k, hk, -, rfl⟩ | ⟨f, t, ls, x, e, hf, -⟩
  · cases hk
    exact ⟨rfl, List.take_of_length_le (by rw [hS]; decide)⟩
  · cases e
    exact absurd hf (by decide)

/-- C125, partial: a credential that was asked to be private has, in `u`, the salt with the first bytes drawn, and its subject, in `u`, the salt with
the second, if the data has no field `u`. One that was not asked to be private has no `u`. -/
theorem C125_partial (E : Env) (S : Stretch) (rnd : Nat → Nat) (now schema issuer : Str) (data : List (Str × Value)) (recipient : Option Str)
    (priv : Option Bool) (status : Option Str) (source rules : Option Value) (version : Option Version) (kind : Option Str) (c : Sad)
    (hS : ∀ n, (S.fill n).length = 16) (hdata : (data.map Prod.fst).Nodup) (hu : str% "u" ∉ data.map Prod.fst)
    (h : createAcdc E S rnd now schema issuer (.obj data) recipient priv none status source rules version kind = .ok c) :
    ∃ sub, field (str% "a") c.ked = some sub ∧
      (priv = some true → ∃ t t', field (str% "u") c.ked = some (.str t) ∧ SaltOf t (S.fill (rnd 0)) ∧ field (str% "u") sub = some (.str t') ∧ SaltOf t' (S.fill (rnd 1))) ∧
      (priv ≠ some true → field (str% "u") c.ked = none ∧ field (str% "u") sub = none) := by
  obtain ⟨vs, u, u', map, a, e, h1, h2, ha, hb⟩ := create_blinds h
  cases e
  obtain ⟨sub, hsub, -, hf⟩ := C37_fields _ _ _ _ _ _ _ _ _ (show _ = Res.ok (a.1, a.2) from ha)
  have hfu : field (str% "u") (.obj sub) = u'.map .str := by
    rw [hf _ (by decide) (by decide), Saider.field_find]
    unfold subjectDoc
    rw [find_entries _ _ _ hdata, find_none_of hu, find_insert_ne (by decide)]
    cases u' <;> cases recipient <;> simp [entry, Value.find]
  have hcu : field (str% "u") c.ked = u.map .str := by
    rw [hb.fields _ (by decide) (by decide)]
    cases u <;> cases status <;> cases source <;> cases rules <;> simp [field, credDoc, entry]
  refine ⟨.obj sub, ?_, ?_, ?_⟩
  · rw [hb.fields _ (by decide) (by decide), ← hsub]
    cases u <;> cases status <;> simp [field, credDoc, entry]
  · intro hp
    obtain ⟨x, y, hx, hy, rfl, rfl⟩ := h2 hp
    exact ⟨x, y, hcu, blinding_salt (hS _) hx, hfu, blinding_salt (hS _) hy⟩
  · intro hp
    obtain ⟨rfl, rfl⟩ := h1 hp
    exact ⟨hcu, hfu⟩

/-- C125: two private credentials, whatever they say, for which different bytes were drawn differ, and so do their subjects. -/
theorem C125_differ_partial (E : Env) (S : Stretch) (rnd rnd' : Nat → Nat) (now now' schema schema' issuer issuer' : Str) (data data' : List (Str × Value))
    (recipient recipient' : Option Str) (status status' : Option Str) (source source' rules rules' : Option Value) (version version' : Option Version)
    (kind kind' : Option Str) (c c' : Sad) (hS : ∀ n, (S.fill n).length = 16) (hdata : (data.map Prod.fst).Nodup) (hdata' : (data'.map Prod.fst).Nodup)
    (hu : str% "u" ∉ data.map Prod.fst) (hu' : str% "u" ∉ data'.map Prod.fst)
    (h : createAcdc E S rnd now schema issuer (.obj data) recipient (some true) none status source rules version kind = .ok c)
    (h' : createAcdc E S rnd' now' schema' issuer' (.obj data') recipient' (some true) none status' source' rules' version' kind' = .ok c') :
    (S.fill (rnd 0) ≠ S.fill (rnd' 0) → field (str% "u") c.ked ≠ field (str% "u") c'.ked) ∧
    (S.fill (rnd 1) ≠ S.fill (rnd' 1) → field (str% "a") c.ked ≠ field (str% "a") c'.ked) := by
  obtain ⟨sub, g1, g2, -⟩ := C125_partial E S rnd now schema issuer data recipient (some true) status source rules version kind c hS hdata hu h
  obtain ⟨sub', k1, k2, -⟩ := C125_partial E S rnd' now' schema' issuer' data' recipient' (some true) status' source' rules' version' kind' c' hS hdata' hu' h'
  obtain ⟨t, t', a1, ⟨m, a2, -, a3⟩, a4, ⟨m', a5, -, a6⟩⟩ := g2 rfl
  obtain ⟨v, v', b1, ⟨w, b2, -, b3⟩, b4, ⟨w', b5, -, b6⟩⟩ := k2 rfl
  constructor
  · intro hne e
    rw [a1, b1] at e
    cases e
    rw [a2] at b2
    cases b2
    exact hne (a3.symm.trans b3)
  · intro hne e
    rw [g1, k1] at e
    cases e
    rw [a4] at b4
    cases b4
    rw [a5] at b5
    cases b5
    exact hne (a6.symm.trans b6)

/-- A private credential whose data has a field `u`. -/
def World.unblinded (n : Nat) : Res Sad :=
  createAcdc (World.env []) World.stretch (fun _ => n) (str% "2023-01-01T00:00:00.000000+00:00") (str% "schema") (str% "issuer")
    (.obj [(str% "u", .str (str% "x")), (str% "name", .str (str% "y"))]) (some (str% "recipient")) (some true) none none none none none none

/-- A private credential. -/
def World.blinded (n : Nat) : Res Sad :=
  createAcdc (World.env []) World.stretch (fun i => n + i) (str% "2023-01-01T00:00:00.000000+00:00") (str% "schema") (str% "issuer")
    (.obj [(str% "name", .str (str% "y"))]) (some (str% "recipient")) (some true) none none none none none none

/-- The text of the subject, and its `u`. -/
def World.subjectText (c : Sad) : Option (Str × Option Str) := (field (str% "a") c.ked).map fun v => (v.toJson, World.textAt (str% "u") v)

/-- The subject of the credential with the `u` of the data, whatever is drawn. -/
theorem World.unblinded_text : World.holds (World.unblinded 1) (fun c => World.holds (World.unblinded 2) fun c' =>
    World.subjectText c == World.subjectText c' && (World.subjectText c).map Prod.snd == some (some (str% "x"))) = true := by decide +kernel

/-- C125 is false: when the data has a field `u`, it takes the place of the random one. So private credentials for which different bytes were drawn
have the same subject, which can be guessed from the data. -/
theorem C125_false : ∃ (E : Env) (S : Stretch) (rnd rnd' : Nat → Nat) (now schema issuer : Str) (data : List (Str × Value)) (recipient : Option Str) (c c' : Sad) (sub sub' : Value),
    (∀ n, (S.fill n).length = 16) ∧ (data.map Prod.fst).Nodup ∧ S.fill (rnd 1) ≠ S.fill (rnd' 1) ∧
    createAcdc E S rnd now schema issuer (.obj data) recipient (some true) none none none none none none = .ok c ∧
    createAcdc E S rnd' now schema issuer (.obj data) recipient (some true) none none none none none none = .ok c' ∧
    field (str% "a") c.ked = some sub ∧ field (str% "a") c'.ked = some sub' ∧ sub.toJson = sub'.toJson := by
  obtain ⟨c, hc, h⟩ := World.holds_ok World.unblinded_text
  obtain ⟨c', hc', h⟩ := World.holds_ok h
  rw [Bool.and_eq_true, beq_iff_eq, beq_iff_eq] at h
  obtain ⟨h1, h2⟩ := h
  unfold World.subjectText at h1 h2
  cases e : field (str% "a") c.ked with
  | none => rw [e] at h2; cases h2
  | some sub =>
    cases e' : field (str% "a") c'.ked with
    | none => rw [e, e'] at h1; cases h1
    | some sub' =>
      rw [e, e'] at h1
      refine ⟨_, _, _, _, _, _, _, _, _, c, c', sub, sub', fun n => ?_, ?_, ?_, hc, hc', e, e', congrArg Prod.fst (Option.some.inj h1)⟩
      · exact List.length_replicate ..
      · decide
      · decide

/-- The hypotheses are met by private credentials that say the same, for which different bytes were drawn. -/
example : ∃ c c' : Sad, World.blinded 1 = .ok c ∧ World.blinded 3 = .ok c' ∧ (∀ n, (World.stretch.fill n).length = 16) ∧ World.stretch.fill 1 ≠ World.stretch.fill 3 ∧
    field (str% "u") c.ked ≠ field (str% "u") c'.ked ∧ field (str% "a") c.ked ≠ field (str% "a") c'.ked := by
  have h : World.holds (World.blinded 1) (fun _ => World.holds (World.blinded 3) fun _ => true) = true := by decide +kernel
  obtain ⟨c, hc, h⟩ := World.holds_ok h
  obtain ⟨c', hc', -⟩ := World.holds_ok h
  have hS : ∀ n, (World.stretch.fill n).length = 16 := fun n => List.length_replicate ..
  have hd := C125_differ_partial _ _ _ _ _ _ _ _ _ _ _ _ _ _ _ _ _ _ _ _ _ _ _ _ c c' hS (by decide) (by decide) (by decide) (by decide) hc hc'
  exact ⟨c, c', hc, hc', hS, by decide, hd.1 (by decide), hd.2 (by decide)⟩

end Keride.Props
