/-
C118: verification comes to an end.
-/
import Verif.Lemmas.End
import Verif.Props.Depth

namespace Keride.Props

open Spec Sample Matter

/-- The copy of the model in which what happens at depth nothing is `z` is the model when that is a panic. -/
theorem C118_same (E : Env) (fuel : Nat) (deep verify : Option Bool) (st : Store) (msgs : List Msg) (v : List Str) :
    ingestLoopOr E none fuel deep verify st msgs v = ingestLoop E fuel deep verify st msgs v := loop_copy E fuel deep verify msgs st v

/-- C118: whatever was received before, and whatever is received now, with or without deep verification, the verification
of a stream comes to an end: there is a depth `n` that it does not get to, so that it does not matter what would happen
there. -/
theorem C118_ends (E : Env) (hR : Remembers E) (hist : List (Msg × Msg)) (st : Store) (h : Reach E hist st) (deep verify : Option Bool) (msgs : List Msg) :
    ∃ n, ∀ fuel, n ≤ fuel → ∀ z, ingestLoopOr E z fuel deep verify st msgs [] = ingestLoop E n deep verify st msgs [] := by
  by_cases hv : verify = some false
  · subst hv
    exact ⟨0, fun fuel _ z => loop_free E z deep fuel 0 msgs st []⟩
  · obtain ⟨b, hb⟩ := reach_sized h
    obtain ⟨n, hn⟩ := loop_ends hR deep hv msgs st [] b (reach_sited h) hb nofun
    exact ⟨n, fun fuel hf z => hn z fuel n hf (Nat.le_refl _)⟩

/-- C118, how deep it gets: the verification of a key event makes at most one call for each event kept for its
identifier. -/
theorem C118_depth (E : Env) (hist : List (Msg × Msg)) (st : Store) (h : Reach E hist st) (deep : Option Bool) (s : Sad) (pre : Str) (hpre : Serder.pre s = .ok pre)
    (groups : List SigGroup) (v : List Str) (fuel : Nat) (hf : (st.kels pre).length < fuel) (z : Option Err) :
    verifyKeyEventOr E z st deep fuel s groups v = verifyKeyEvent E st deep ((st.kels pre).length + 1) s groups v :=
  keyEvent_ends (reach_sited h) fuel _ s groups v (by omega) (by omega) fun p hp => by
    rw [hpre] at hp
    cases hp
    have := left_le (eventSaid E) v (st.kels pre)
    omega

/-- The inception and the interaction of the examples. -/
def World.endCase : Res (List Msg × List Msg) := do
  let a ← World.signed (World.ks [1, 2]) World.icp
  let b ← World.signed (World.ks [1, 2]) World.ixn
  .ok ([a.1, a.2], [b.1, b.2])

/-- Whether this is the error `programmer`. -/
def World.programmer {α : Type} : Res α → Bool
  | .err .programmer => true
  | _ => false

/-- The store of a verifier that has received the inception. -/
def World.begun (x : List Msg × List Msg) : Store := (ingestLoop (World.env x.1) 5 none none Store.empty (x.1.take x.1.length) []).1

/-- The hypotheses of C118 are met, and the depth is not nothing: a verifier has received an inception and receives an
interaction, which it verifies deeply. It accepts it; at depth one it would get to the end of the depth. -/
example : ∃ (E : Env) (hist : List (Msg × Msg)) (st : Store) (msgs : List Msg), Remembers E ∧ Reach E hist st ∧
    (ingestLoop E 2 (some true) none st msgs []).2.isOk = true ∧ (ingestLoopOr E (some .programmer) 2 (some true) none st msgs []).2.isOk = true ∧
    (ingestLoopOr E (some .programmer) 1 (some true) none st msgs []).2 = .err .programmer := by
  obtain ⟨x, hx, h⟩ := World.holds_ok (r := World.endCase) (f := fun x =>
    (ingestLoop (World.reader (x.1 ++ x.2)) 2 (some true) none (World.begun x) x.2 []).2.isOk &&
    (ingestLoopOr (World.reader (x.1 ++ x.2)) (some .programmer) 2 (some true) none (World.begun x) x.2 []).2.isOk &&
    World.programmer (ingestLoopOr (World.reader (x.1 ++ x.2)) (some .programmer) 1 (some true) none (World.begun x) x.2 []).2) (by decide +kernel)
  rw [Bool.and_eq_true, Bool.and_eq_true] at h
  refine ⟨World.reader (x.1 ++ x.2), _, World.begun x, x.2, World.reader_remembers _,
    Reach.ingest (World.env x.1) 5 x.1.length [] x.1 none none .empty ⟨rfl, rfl, rfl, rfl⟩ (World.env_remembers _) rfl (by simp), h.1.1, h.1.2, ?_⟩
  have h3 := h.2
  unfold World.programmer at h3
  split at h3
  · assumption
  · cases h3

end Keride.Props
