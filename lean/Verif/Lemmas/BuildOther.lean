/-
Inceptions with an identifier that is a key, and delegated inceptions.
-/
import Verif.Lemmas.BuildIncept
import Verif.Lemmas.Accept

namespace Keride.Sample

open Spec Matter Sadder

/-- The document of an inception before its identifier and its SAID are written into it. -/
def inceptDoc (delpre : Option Str) (vs t : Str) (kt nt bt : Value) (keys ndigs wits cnfg : List Str) (data : List Value) : List (Str × Value) :=
  match delpre with
  | none => icpDoc vs t kt nt bt keys ndigs wits cnfg data
  | some d => [(str% "v", .str vs), (str% "t", .str (str% "dip")), (str% "d", .str []), (str% "i", .str []), (str% "s", .str t), (str% "kt", kt), (str% "k", texts keys),
   (str% "nt", nt), (str% "n", texts ndigs), (str% "bt", bt), (str% "b", texts wits), (str% "c", texts cnfg), (str% "a", .arr data), (str% "di", .str d)]

/-- What an inception is made of. -/
structure Inceives (E : Env) (keys : List Str) (sith : Option Value) (ndigs : Option (List Str)) (nsith : Option Value) (toad : Option Nat)
    (wits : Option (List Str)) (intive : Option Bool) (t : Str) (kt nt bt : Value) (th nth : Tholder) : Prop where
  zero : ∃ m, Number.newWithNum 0 = .ok m ∧ Number.numh m = .ok t
  thold : Tholder.newWithSith E.chk (jsonRead E.fl) (sith.getD (majority 1 keys.length)) = .ok th
  nthold : Tholder.newWithSith E.chk (jsonRead E.fl) (nsith.getD (majority 0 (ndigs.getD []).length)) = .ok nth
  ktOf : tholdField th (intive.getD false) = .ok kt
  ntOf : tholdField nth (intive.getD false) = .ok nt
  size : th.size ≤ keys.length
  nsize : nth.size ≤ (ndigs.getD []).length
  one : ∃ n, th.num = .ok n ∧ 1 ≤ n.getD 1
  apart : repeats (wits.getD []) = false
  toader : ∃ m, inceptToader E.chk toad (wits.getD []) = .ok m ∧ toadField m (intive.getD false) = .ok bt

theorem incept_parts {E : Env} {keys : List Str} {sith : Option Value} {ndigs : Option (List Str)} {nsith : Option Value} {toad : Option Nat}
    {wits cnfg : Option (List Str)} {data : Option (List Value)} {version : Option Version} {kind code : Option Str} {intive : Option Bool} {delpre : Option Str} {s : Sad}
    (h : incept E keys sith ndigs nsith toad wits cnfg data version kind code intive delpre = .ok s) :
    ∃ vs t kt nt bt th nth p q, Inceives E keys sith ndigs nsith toad wits intive t kt nt bt th nth ∧
      ((delpre = none ∧ code = none ∧ (∃ k, keys = [k] ∧ Prefixer.newWithQb64 E.H k = .ok p) ∧ digestive p = false) ∨
        (¬ (delpre = none ∧ code = none ∧ keys.length = 1) ∧
        Prefixer.newWithKed E.H (.obj (inceptDoc delpre vs t kt nt bt keys (ndigs.getD []) (wits.getD []) (cnfg.getD []) (data.getD []))) none
          (if delpre.isSome then some (code.getD (str% "E")) else code) = .ok p ∧ (delpre.isSome → digestive p = true))) ∧
      qb64 E.chk p = .ok q ∧
      ((digestive p = true ∧ Serder.newWithKed E.fl (.obj (Value.insert (str% "d") (.str q) (Value.insert (str% "i") (.str q)
          (inceptDoc delpre vs t kt nt bt keys (ndigs.getD []) (wits.getD []) (cnfg.getD []) (data.getD []))))) none none = .ok s) ∨
        digestive p = false ∧ ∃ r, Saider.saidify E.H E.chk (.obj (Value.insert (str% "i") (.str q)
          (inceptDoc delpre vs t kt nt bt keys (ndigs.getD []) (wits.getD []) (cnfg.getD []) (data.getD [])))) none none none none = .ok r ∧
          Serder.newWithKed E.fl r.2 none none = .ok s) := by
  unfold incept at h
  dsimp only at h
  obtain ⟨vs, -, h⟩ := Res.bind_eq_ok.mp h
  obtain ⟨m, hm, h⟩ := Res.bind_eq_ok.mp h
  obtain ⟨th, hth, h⟩ := Res.bind_eq_ok.mp h
  obtain ⟨n, hnum, h⟩ := Res.bind_eq_ok.mp h
  obtain ⟨hone, h⟩ := if_err h
  obtain ⟨hsz, h⟩ := if_err h
  obtain ⟨nth, hnth, h⟩ := Res.bind_eq_ok.mp h
  obtain ⟨hnsz, h⟩ := if_err h
  obtain ⟨w1, h⟩ := if_err h
  obtain ⟨toader, htoad, h⟩ := Res.bind_eq_ok.mp h
  obtain ⟨kt, hkt, h⟩ := Res.bind_eq_ok.mp h
  obtain ⟨nt, hnt, h⟩ := Res.bind_eq_ok.mp h
  obtain ⟨bt, hbt, h⟩ := Res.bind_eq_ok.mp h
  obtain ⟨t, ht, h⟩ := Res.bind_eq_ok.mp h
  obtain ⟨p, hp, h⟩ := Res.bind_eq_ok.mp h
  obtain ⟨q, hq, h⟩ := Res.bind_eq_ok.mp h
  obtain ⟨ked, hked, h⟩ := Res.bind_eq_ok.mp h
  refine ⟨vs, t, kt, nt, bt, th, nth, p, q, ⟨⟨m, hm, ht⟩, hth, hnth, hkt, hnt, by omega, by omega, ⟨n, hnum, by omega⟩, Bool.not_eq_true _ ▸ w1, toader, htoad, hbt⟩, ?_, hq, ?_⟩
  · cases delpre with
    | none =>
      simp only [Option.isSome_none, Option.isNone_none, Bool.false_eq_true, ↓reduceIte, false_and] at hp
      split at hp
      · rename_i hc
        obtain ⟨k, hk, hp⟩ := Res.bind_eq_ok.mp hp
        obtain ⟨p', hp', hp⟩ := Res.bind_eq_ok.mp hp
        obtain ⟨hd, hp⟩ := if_err hp
        cases hp
        obtain ⟨k', rfl⟩ := List.length_eq_one_iff.mp hc.2.2
        cases hk
        exact .inl ⟨rfl, Option.isNone_iff_eq_none.mp hc.2.1, ⟨k, rfl, hp'⟩, by simpa using hd⟩
      · rename_i hc
        obtain ⟨p', hp', hp⟩ := Res.bind_eq_ok.mp hp
        cases hp
        refine .inr ⟨?_, hp', by simp⟩
        rintro ⟨-, rfl, h1⟩
        exact hc ⟨trivial, rfl, h1⟩
    | some d =>
      dsimp only [Option.isSome_some, Option.isNone_some] at hp
      rw [if_neg (by simp)] at hp
      obtain ⟨p', hp', hp⟩ := Res.bind_eq_ok.mp hp
      obtain ⟨hd, hp⟩ := if_err hp
      cases hp
      refine .inr ⟨by simp, hp', fun _ => ?_⟩
      by_contra hx
      exact hd ⟨rfl, by simpa using hx⟩
  · split at hked
    · rename_i hd
      cases hked
      refine .inl ⟨hd, ?_⟩
      cases delpre <;> exact h
    · rename_i hd
      obtain ⟨r, hr, hked⟩ := Res.bind_eq_ok.mp hked
      cases hked
      refine .inr ⟨by simpa using hd, r, ?_, h⟩
      cases delpre <;> exact hr

end Keride.Sample
