/-
C70: thresholds that one may ask for.
-/
import Verif.Lemmas.Kmi
import Verif.Props.Deliver
import Verif.Props.Kmi

namespace Keride.Props

open Spec Sample Matter

/-- C70: whatever threshold is asked for, by number or by weights for the keys there are, all keys together meet that of the
event the library builds. -/
theorem C70_asked (E : Env) (keys : List Str) (sith : Option Value) (ndigs : Option (List Str)) (nsith : Option Value) (toad : Option Nat)
    (wits cnfg : Option (List Str)) (data : Option (List Value)) (version : Option Version) (kind : Option Str) (code : Str) (intive : Option Bool)
    (s : Sad) (hcode : code ∈ digests) (hsith : Askable sith keys.length)
    (h : incept E keys sith ndigs nsith toad wits cnfg data version kind (some code) intive none = .ok s) :
    Reaches (Serder.tholder E.chk E.fl s) keys.length := by
  obtain ⟨vs, t, kt, nt, bt, th, nth, pre, hb, h1, h2, h3, h4, h5, h6, h7, h8, -⟩ := incept_ok hcode h
  exact ⟨th, h4, askable_covers hsith h2 h6 h8⟩

/-- C70: the same for rotations, for its own keys and for the next ones. -/
theorem C70_asked_rotate (E : Env) (pre dig : Str) (keys : List Str) (ilk : Option Str) (sn : Nat) (sith : Option Value)
    (ndigs : Option (List Str)) (nsith : Option Value) (toad : Option Nat) (wits cuts adds : Option (List Str)) (data : Option (List Value))
    (version : Option Version) (kind : Option Str) (intive : Option Bool) (s : Sad) (hsn : sn < 2 ^ 128)
    (h : rotate E pre keys dig ilk sn sith ndigs nsith toad wits cuts adds data version kind intive = .ok s) :
    (Askable sith keys.length → Reaches (Serder.tholder E.chk E.fl s) keys.length) ∧
    (Askable nsith (ndigs.getD []).length → Reaches (Serder.ntholder E.chk E.fl s) (ndigs.getD []).length) := by
  obtain ⟨vs, t, kt, nt, bt, th, nth, hb, h1, h1', h2, h3, h4, h5, h6, h7, h8, h8', -⟩ := rotate_ok hsn h
  exact ⟨fun ha => ⟨th, h4, askable_covers ha h2 h6 h8⟩, fun ha => ⟨nth, h5, askable_covers ha h3 h7 h8'⟩⟩

/-- Weights for the two keys of an inception that the library builds. -/
example : ∃ (E : Env) (keys : List Str) (s : Sad), keys.length = 2 ∧ Askable (some (.arr [.str (str% "1/2"), .str (str% "1/2")])) keys.length ∧
    incept E keys (some (.arr [.str (str% "1/2"), .str (str% "1/2")])) none none none none none none none none (some (str% "E")) none none = .ok s := by
  obtain ⟨x, hx, h⟩ := World.holds_ok (r := do
    let a ← World.ks [1, 2]
    a.verfersQb64 (World.env [])) (f := fun keys => decide (keys.length = 2) &&
      World.holds (incept (World.env []) keys (some (.arr [.str (str% "1/2"), .str (str% "1/2")])) none none none none none none none none (some (str% "E")) none none) fun _ => true)
    (by decide +kernel)
  simp only [Bool.and_eq_true, decide_eq_true_eq] at h
  obtain ⟨h1, h2⟩ := h
  obtain ⟨s, hs, -⟩ := World.holds_ok h2
  refine ⟨_, x, s, h1, ?_, hs⟩
  rw [h1]
  exact World.halves

end Keride.Props
