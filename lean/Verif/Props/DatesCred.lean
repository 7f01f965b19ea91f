/-
C123: the dates of credentials that are accepted.
-/
import Verif.Props.Dates
import Verif.Props.Acdc
import Verif.Lemmas.WorldAcdc

namespace Keride.Props

open Spec Sample

/-- C123: of a credential that is accepted the last transaction event has a date that can be read, and it is not more
than 36000000000 whole seconds before the time of verification. -/
theorem C123_accepted (E : Env) (hH : HashOk E.H) (now : Int) (hclock : E.expired = expiredAt now) (st : Store) (deep : Option Bool) (fuel : Nat) (raw : Bytes) (cred : Sad)
    (groups : List SigGroup) (v : List Str) (r : Bool × List Str) (hread : Creder.newWithRaw E.fl raw = .ok cred) (h : verifyAcdc E st deep fuel cred groups v = .ok r) :
    ∃ q text e dt t, Sadder.said E.chk cred = .ok q ∧ (st.tels q).getLast? = some text ∧ Serder.newWithRaw E.fl (toUtf8 text) = .ok e ∧ HasText (str% "dt") dt e ∧
      readDate dt = some t ∧ now < t + 36000000001 * 1000000000 := by
  obtain ⟨-, q, text, e, dt, h1, h2, h3, -, h4, h5⟩ := C66_verified E hH st deep fuel raw cred groups v r hread h
  rw [hclock] at h5
  unfold expiredAt at h5
  obtain ⟨t, ht, h5⟩ := Res.bind_eq_ok.mp h5
  have hd := of_decide_eq_false (Res.ok.inj h5)
  rw [tdiv_gt] at hd
  exact ⟨q, text, e, dt, t, h1, h2, h3, h4, Res.ofOption_eq_ok.mp ht, by omega⟩

/-- The credential of the examples is accepted on the sixteenth of November 2026, and no more in the year 3166. -/
example : ∃ (E E' : Env) (st : Store) (c : Sad) (sig : SadPathSig) (r : Bool × List Str),
    E = { World.env [] with expired := expiredAt (DateTime.instant ⟨2026, 11, 16, 22, 40, 0, 0⟩) } ∧ E' = { World.env [] with expired := expiredAt (DateTime.instant ⟨3166, 1, 1, 0, 0, 0, 0⟩) } ∧
    HashOk E.H ∧ Creder.newWithRaw E.fl c.raw = .ok c ∧ verifyAcdc E st (some false) 5 c [.sadPath [sig]] [] = .ok r ∧
    verifyAcdc E' st (some false) 5 c [.sadPath [sig]] [] = .err .validation := by
  obtain ⟨x, hx, h⟩ := World.holds_ok (r := do
    let l ← World.inRow World.issued
    let m ← World.proved (World.ks [1]) World.credA World.icpA
    .ok (l, m)) (f := fun x : List Msg × (Msg × Msg) => match x.2 with
      | (.payload p, .group (.quadlets [.sadPath [sig]]) _) => World.holds (Creder.newWithRaw (fun _ => none) (toUtf8 p)) fun c =>
        World.holds (verifyAcdc { World.env [] with expired := expiredAt (DateTime.instant ⟨2026, 11, 16, 22, 40, 0, 0⟩) } (World.kept x.1) (some false) 5 c [.sadPath [sig]] []) fun _ =>
        decide (verifyAcdc { World.env [] with expired := expiredAt (DateTime.instant ⟨3166, 1, 1, 0, 0, 0, 0⟩) } (World.kept x.1) (some false) 5 c [.sadPath [sig]] [] = .err .validation) &&
        decide (c.raw = toUtf8 p)
      | _ => false) (by decide +kernel)
  split at h
  · rename_i p sig gt hm
    obtain ⟨c, hc, h⟩ := World.holds_ok h
    obtain ⟨r, hr, h⟩ := World.holds_ok h
    simp only [Bool.and_eq_true, decide_eq_true_eq] at h
    exact ⟨_, _, _, c, sig, r, rfl, rfl, World.hash_ok, by rw [h.2]; exact hc, hr, h.1⟩
  · cases h

end Keride.Props
