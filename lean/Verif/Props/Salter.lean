/-
Property C45: keys stretched from a salt (salter.rs, signify/creating.rs).
-/
import Verif.Model.Salter
import Verif.Spec.Crypto
import Verif.Lemmas.Text
import Verif.Props.Types
import Mathlib.Data.List.Forall2

namespace Keride.Props

open Spec Matter

theorem tier_mem {tier : Str} {p : Nat × Nat} (h : tierParams tier = some p) : (tier, p) ∈ tierCosts := by
  unfold tierParams at h
  split at h
  · rename_i e; subst e; cases h; decide
  split at h
  · rename_i e; subst e; cases h; decide
  split at h
  · rename_i e; subst e; cases h; decide
  split at h
  · rename_i e; subst e; cases h; decide
  · cases h

/-- The secret `seed` comes from stretching `path` with `salt` at the cost of `tier`. -/
def Stretched (S : Stretch) (salt : Bytes) (tier path : Str) (s : Signer) : Prop :=
  ∃ mem iter seed, (tier, mem, iter) ∈ tierCosts ∧ S.argon2id mem iter 32 (toUtf8 path) salt = .ok seed ∧ s.m.raw = seed.take 32

/-- C45: `stretch` itself: 32 bytes, the empty path and the tier of the salt unless told otherwise, the cheapest tier only
when `temp` is set. -/
theorem C45_stretch (S : Stretch) (s : Salter) (size : Option Nat) (path tier : Option Str) (temp : Option Bool) (seed : Bytes)
    (h : s.stretch S size path tier temp = .ok seed) :
    ∃ mem iter, ((if temp = some true then str% "min" else tier.getD s.tier), mem, iter) ∈ tierCosts ∧
      S.argon2id mem iter (size.getD 32) (toUtf8 (path.getD [])) s.m.raw = .ok seed := by
  unfold Salter.stretch saltStretch at h
  dsimp only at h
  obtain ⟨p, hp, h⟩ := Res.bind_eq_ok.mp h
  refine ⟨p.1, p.2, ?_, h⟩
  have e : (if temp = some true then str% "min" else tier.getD s.tier) = if temp.getD false = true then str% "min" else tier.getD s.tier := by
    cases temp with
    | none => rfl
    | some b => cases b <;> rfl
  rw [e]
  apply tier_mem
  generalize tierParams _ = r at hp
  cases r with
  | none => cases hp
  | some r => cases hp; rfl

example : ∃ seed, Salter.stretch ⟨fun _ _ n _ _ => .ok (List.replicate n 7), fun _ => []⟩ ⟨⟨str% "0A", 0, List.replicate 16 1⟩, str% "low"⟩ none none none none =
    .ok seed := ⟨_, rfl⟩

/-- C45: a key of a salt is stretched from the path given at the tier given, or that of the salt, or the cheapest when
`temp` is set; it has the seed code and the kind of key asked for. -/
theorem C45_signer (C : Crypto) (S : Stretch) (s : Salter) (code : Option Str) (tr : Option Bool) (path tier : Option Str) (temp : Option Bool) (g : Signer)
    (h : s.signer C S code tr path tier temp = .ok g) :
    Stretched S s.m.raw (if temp.getD false then str% "min" else tier.getD s.tier) (path.getD []) g ∧ g.m.code = code.getD (str% "A") ∧
      g.m.code ∈ seedCodes ∧ g.verfer.code ∈ if tr.getD true then rotatableKeyCodes else fixedKeyCodes := by
  unfold Salter.signer at h
  dsimp only at h
  obtain ⟨size, hsz, h⟩ := Res.bind_eq_ok.mp h
  obtain ⟨seed, hseed, h⟩ := Res.bind_eq_ok.mp h
  have ht := C44_signer _ _ _ _ _ _ _ _ _ h
  unfold Signer.new at h
  obtain ⟨m, hm, h⟩ := Res.bind_eq_ok.mp h
  obtain ⟨v, hv, h⟩ := Res.bind_eq_ok.mp h
  cases h
  rw [if_pos (by simp)] at hm
  dsimp only [Option.getD_some] at hm
  obtain ⟨u, hu, hm⟩ := Res.bind_eq_ok.mp hm
  rw [Res.ok_bind] at hm
  have row : ∀ c, c = str% "A" ∨ c = str% "J" ∨ c = str% "Q" → (c, 32) ∈ fixedCodes ∧ rawSize c = .ok 32 := by
    rintro c (rfl | rfl | rfl) <;> decide
  obtain ⟨r1, r2⟩ := row _ (seed_codes.mp hu)
  rw [r2] at hsz
  cases hsz
  change newWithCodeAndRaw _ _ = _ at hm
  rw [new_fixed r1] at hm
  split at hm
  · cases hm
  cases hm
  refine ⟨?_, rfl, ht⟩
  unfold Salter.stretch saltStretch at hseed
  dsimp only [Option.getD_some] at hseed
  obtain ⟨p, hp, hseed⟩ := Res.bind_eq_ok.mp hseed
  refine ⟨p.1, p.2, seed, ?_, hseed, rfl⟩
  cases ht : tierParams (if temp.getD false = true then str% "min" else tier.getD s.tier) with
  | none => rw [ht] at hp; cases hp
  | some p' =>
    rw [ht] at hp
    cases hp
    exact tier_mem ht

/-- C45: the keys of `signers`: as many as asked for, the `i`-th stretched from the path followed by its number in
hexadecimal. -/
theorem C45_signers (C : Crypto) (S : Stretch) (s : Salter) (count start : Option Nat) (path code : Option Str) (tr : Option Bool) (tier : Option Str)
    (temp : Option Bool) (l : List Signer) (h : s.signers C S count start path code tr tier temp = .ok l) :
    l.length = count.getD 1 ∧ ∀ i (hi : i < l.length),
      Stretched S s.m.raw (if temp.getD false then str% "min" else tier.getD s.tier) (path.getD [] ++ hex (i + start.getD 0)) l[i] := by
  unfold Salter.signers at h
  have hf := Res.mapList_ok.mp h
  have hlen := hf.length_eq
  rw [List.length_range] at hlen
  refine ⟨hlen.symm, fun i hi => ?_⟩
  have := List.Forall₂.get hf (i := i) (by rw [List.length_range]; omega) hi
  simp only [List.get_eq_getElem, List.getElem_range] at this
  have := (C45_signer _ _ _ _ _ _ _ _ _ this).1
  unfold Salter.signersPath at this
  rw [fmtNat_eq (by decide) (by decide)] at this
  exact this

theorem hex_inj {m n : Nat} (h : hex m = hex n) : m = n := by
  unfold hex at h
  rw [← fmtNat_eq (by decide) (by decide), ← fmtNat_eq (by decide) (by decide)] at h
  exact fmtNat_inj (by decide) (by decide) h

/-- C45: the paths of one call of `signers` are different. -/
theorem C45_signers_distinct (path : Str) (start i j : Nat) (hij : i ≠ j) : path ++ hex (i + start) ≠ path ++ hex (j + start) := by
  intro h
  have := hex_inj (List.append_cancel_left h)
  omega

/-- C45, partial: the keys of `create`: as many as codes, or as `count` says; the `i`-th has its code and is stretched
from the stem followed by the rotation index and the key index in hexadecimal, as long as the key indices fit 16 bits.
Missing: the tier asked for at construction, see `C45_tier_false`. -/
theorem C45_create_partial (C : Crypto) (S : Stretch) (chk : Bool) (c : SaltyCreator) (codes : Option (List Str)) (count : Option Nat) (code : Option Str)
    (pidx ridx kidx : Option Nat) (stem : Option Str) (tr : Option Bool) (temp : Bool) (l : List Signer)
    (hfit : ∀ i < l.length, kidx.getD 0 + i < 2 ^ 16)
    (h : c.create C S chk codes count code pidx ridx kidx stem tr temp = .ok l) :
    (codes.getD [] ≠ [] → l.map (·.m.code) = codes.getD []) ∧
    (codes.getD [] = [] → l.map (·.m.code) = List.replicate (count.getD 1) (code.getD (str% "A"))) ∧
    ∀ i (hi : i < l.length), Stretched S c.salter.m.raw (if temp then str% "min" else c.tier)
      ((if c.stem ≠ [] then c.stem else stem.getD (hex (pidx.getD 0))) ++ hex (ridx.getD 0) ++ hex (kidx.getD 0 + i)) l[i] := by
  unfold SaltyCreator.create at h
  dsimp only at h
  have hcodes : ∀ (cs : List Str) (st : Str), Res.mapList (fun e : Str × Nat => SaltyCreator.path chk st (ridx.getD 0) (kidx.getD 0) e.2 >>= fun p =>
      Res.unwrap (Salter.signer C S c.salter (some e.1) (some (tr.getD true)) (some p) (some c.tier) (some temp))) cs.zipIdx = .ok l →
      l.map (·.m.code) = cs ∧ ∀ i (hi : i < l.length), Stretched S c.salter.m.raw (if temp then str% "min" else c.tier)
        (st ++ hex (ridx.getD 0) ++ hex (kidx.getD 0 + i)) l[i] := by
    intro cs st h
    have hf := Res.mapList_ok.mp h
    have hlen := hf.length_eq
    rw [List.length_zipIdx] at hlen
    have key : ∀ i (hi : i < l.length), (l[i].m.code = cs[i]'(by omega)) ∧ Stretched S c.salter.m.raw (if temp then str% "min" else c.tier)
        (st ++ hex (ridx.getD 0) ++ hex (kidx.getD 0 + i)) l[i] := by
      intro i hi
      have := List.Forall₂.get hf (i := i) (by rw [List.length_zipIdx]; omega) hi
      simp only [List.get_eq_getElem, List.getElem_zipIdx] at this
      obtain ⟨p, hp, this⟩ := Res.bind_eq_ok.mp this
      have h1 := hfit i hi
      unfold SaltyCreator.path SaltyCreator.addU16 at hp
      rw [Nat.zero_add, Nat.mod_eq_of_lt (show i < 2 ^ 16 by omega), if_pos h1, Res.ok_bind] at hp
      cases hp
      have hs : c.salter.signer C S (some (cs[i]'(by omega))) (some (tr.getD true)) (some (st ++ fmtNat 16 (ridx.getD 0) ++ fmtNat 16 (kidx.getD 0 + i)))
          (some c.tier) (some temp) = .ok l[i] := by
        revert this
        cases c.salter.signer C S (some (cs[i]'(by omega))) (some (tr.getD true)) (some (st ++ fmtNat 16 (ridx.getD 0) ++ fmtNat 16 (kidx.getD 0 + i)))
          (some c.tier) (some temp) <;> intro h <;> first | exact h | cases h
      obtain ⟨k1, k2, -⟩ := C45_signer _ _ _ _ _ _ _ _ _ hs
      rw [fmtNat_eq (by decide) (by decide), fmtNat_eq (by decide) (by decide)] at k1
      exact ⟨k2, k1⟩
    refine ⟨?_, fun i hi => (key i hi).2⟩
    apply List.ext_getElem
    · rw [List.length_map]; omega
    · intro i h1 h2
      rw [List.getElem_map]
      exact (key i (by rw [List.length_map] at h1; exact h1)).1
  obtain ⟨k1, k2⟩ := hcodes _ _ h
  refine ⟨fun hne => ?_, fun he => ?_, ?_⟩
  · rw [k1, if_neg hne]
  · rw [k1, if_pos he]
  · unfold SaltyCreator.stemOf at k2
    rw [fmtNat_eq (by decide) (by decide)] at k2
    exact k2

/-- C45, partial: when two paths of the same stem can be the same. Within a rotation different key indices have
different paths, and so have the same key indices in different rotations; two pairs share a path exactly when their
hexadecimal numbers, written one after the other, are the same text, and then one rotation index has fewer digits.
Missing: other pairs do collide, see `C45_false`. -/
theorem C45_paths_partial (stem : Str) (r k r' k' : Nat) (hne : (r, k) ≠ (r', k'))
    (h : stem ++ hex r ++ hex k = stem ++ hex r' ++ hex k') : r ≠ r' ∧ k ≠ k' ∧ (hex r).length ≠ (hex r').length := by
  rw [List.append_assoc, List.append_assoc] at h
  have h := List.append_cancel_left h
  have hl : (hex r).length ≠ (hex r').length := by
    intro hl
    obtain ⟨h1, h2⟩ := List.append_inj h hl
    exact hne (by rw [hex_inj h1, hex_inj h2])
  refine ⟨?_, ?_, hl⟩
  · rintro rfl
    exact hl rfl
  · rintro rfl
    exact hl (by rw [List.append_cancel_right h])

/-- C45 is false: for every salt and stem, the key of rotation 1 and index 17 is the key of rotation 17 and index 1,
both being stretched from the path `stem` followed by `111`. -/
theorem C45_false (C : Crypto) (S : Stretch) (chk : Bool) (c : SaltyCreator) (codes : Option (List Str)) (code pidx : Option _) (stem : Option Str)
    (tr : Option Bool) (temp : Bool) (h1 : (codes.getD []).length ≤ 1) :
    c.create C S chk codes none code pidx (some 1) (some 17) stem tr temp = c.create C S chk codes none code pidx (some 17) (some 1) stem tr temp := by
  unfold SaltyCreator.create
  dsimp only [Option.getD_none]
  have : ∀ cs : List Str, cs.length ≤ 1 → ∀ (st : Str) (f : Str → Str → Res Signer),
      Res.mapList (fun e : Str × Nat => SaltyCreator.path chk st ((some 1).getD 0) ((some 17).getD 0) e.2 >>= fun p => f e.1 p) cs.zipIdx =
      Res.mapList (fun e : Str × Nat => SaltyCreator.path chk st ((some 17).getD 0) ((some 1).getD 0) e.2 >>= fun p => f e.1 p) cs.zipIdx := by
    intro cs hl st f
    cases cs with
    | nil => rfl
    | cons a t =>
      cases t with
      | cons b t => simp at hl
      | nil =>
        have e : SaltyCreator.path chk st ((some 1).getD 0) ((some 17).getD 0) 0 = SaltyCreator.path chk st ((some 17).getD 0) ((some 1).getD 0) 0 := by
          unfold SaltyCreator.path
          rw [show SaltyCreator.addU16 chk ((some 17).getD 0) (0 % 2 ^ 16) = .ok 17 from rfl,
            show SaltyCreator.addU16 chk ((some 1).getD 0) (0 % 2 ^ 16) = .ok 1 from rfl, Res.ok_bind, Res.ok_bind,
            List.append_assoc, List.append_assoc]
          rfl
        simp only [List.zipIdx_cons, List.zipIdx_nil, Res.mapList, e]
  exact this _ (by split <;> simp_all) _ fun a p => Res.unwrap (Salter.signer C S c.salter (some a) (some (tr.getD true)) (some p) (some c.tier) (some temp))

/-- C45 is false: the tier asked for when a creator is made has no effect on its keys, which are stretched at the
cost of the `low` tier. -/
theorem C45_tier_false (C : Crypto) (S : Stretch) (chk : Bool) (rnd : Nat) (salt : Option Str) (stem tier tier' : Option Str) (c c' : SaltyCreator)
    (hc : SaltyCreator.new S rnd salt stem tier none = .ok c) (hc' : SaltyCreator.new S rnd salt stem tier' none = .ok c')
    (codes : Option (List Str)) (count : Option Nat) (code : Option Str) (pidx ridx kidx : Option Nat) (stem' : Option Str) (tr : Option Bool) (temp : Bool) :
    c.tier = str% "low" ∧
    c.create C S chk codes count code pidx ridx kidx stem' tr temp = c'.create C S chk codes count code pidx ridx kidx stem' tr temp := by
  have key : ∀ (t : Option Str) (d : SaltyCreator), SaltyCreator.new S rnd salt stem t none = .ok d →
      ∃ m, d = ⟨stem.getD [], str% "low", ⟨m, t.getD (str% "low")⟩⟩ ∧ (if salt.isNone then Matter.new (some (str% "0A")) (some (S.fill rnd)) none none none
        else Matter.new (some (str% "0A")) none none salt none) = .ok m := by
    intro t d h
    unfold SaltyCreator.new at h
    obtain ⟨s, hs, h⟩ := Res.bind_eq_ok.mp h
    cases h
    have hs' : Salter.new S rnd t none none none salt none = .ok s := by
      revert hs
      dsimp only
      cases Salter.new S rnd t none none none salt none <;> intro h <;> first | exact h | cases h
    unfold Salter.new at hs'
    dsimp only [Option.getD_none] at hs'
    rw [show Salter.validateCode (str% "0A") = .ok () from rfl, Res.ok_bind] at hs'
    obtain ⟨m, hm, hs'⟩ := Res.bind_eq_ok.mp hs'
    cases hs'
    refine ⟨m, rfl, ?_⟩
    rw [← hm]
    cases salt <;> rfl
  obtain ⟨m, rfl, hm⟩ := key _ _ hc
  obtain ⟨m', rfl, hm'⟩ := key _ _ hc'
  rw [hm] at hm'
  cases hm'
  refine ⟨rfl, ?_⟩
  unfold SaltyCreator.create SaltyCreator.stemOf Salter.signer Salter.stretch
  rfl

/-- C45: key indices past 65535 stop the program in checked builds and start again from zero otherwise, so that a key
is used twice. -/
theorem C45_overflow (stem : Str) (ridx : Nat) :
    SaltyCreator.path true stem ridx 65535 1 = .panic ∧
    SaltyCreator.path false stem ridx 65535 1 = SaltyCreator.path false stem ridx 0 0 := ⟨rfl, rfl⟩

/-- A stretching function for examples: the path, padded. -/
def exStretch : Stretch where
  argon2id _ _ len pwd _ := .ok ((pwd ++ List.replicate len 0).take len)
  fill _ := List.replicate 16 7

/-- Two keys made by a creator, with the paths `ab10` and `ab11`: the hypotheses above are met. -/
example : ∃ c l, SaltyCreator.new exStretch 0 none (some (str% "ab")) (some (str% "high")) none = .ok c ∧
    c.create exCrypto exStretch true none (some 2) none none (some 1) none none none false = .ok l ∧
    l.map (fun s => s.m.raw.take 5) = [[97, 98, 49, 48, 0], [97, 98, 49, 49, 0]] := by
  refine ⟨⟨str% "ab", str% "low", ⟨⟨str% "0A", 0, List.replicate 16 7⟩, str% "high"⟩⟩,
    [⟨⟨str% "A", 0, [97, 98, 49, 48] ++ List.replicate 28 0⟩, ⟨str% "D", 0, [97, 98, 49, 48] ++ List.replicate 28 0⟩⟩,
      ⟨⟨str% "A", 0, [97, 98, 49, 49] ++ List.replicate 28 0⟩, ⟨str% "D", 0, [97, 98, 49, 49] ++ List.replicate 28 0⟩⟩], ?_, ?_, ?_⟩ <;>
    decide +kernel

end Keride.Props
