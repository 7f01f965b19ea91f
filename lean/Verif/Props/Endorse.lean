/-
C81: endorsements of the sample code.
-/
import Verif.Props.Messaging
import Verif.Props.Kmi

namespace Keride.Props

open Spec Sample Matter

theorem sealPart_head {chk : Bool} {sl : Option Sample.Seal} {t : Str} (h : sealPart chk sl = .ok t) : SampleSealHead sl t := by
  cases sl with
  | none => cases h; rfl
  | some sl =>
    unfold sealPart at h
    dsimp only at h
    unfold SampleSealHead
    by_cases hl : sl.last
    · rw [if_pos hl] at h
      obtain ⟨c, hc, h⟩ := Res.bind_eq_ok.mp h
      obtain ⟨v, hv, h⟩ := Res.bind_eq_ok.mp h
      obtain ⟨i, hi, h⟩ := Res.bind_eq_ok.mp h
      cases h
      refine ⟨⟨i, [], [], true⟩, hl.symm, index_text hv hi, by simp [hl], sealText_head (chk := chk) ?_⟩
      unfold Messaging.sealText
      dsimp only
      rw [if_pos rfl, hc, Res.ok_bind]
    · rw [if_neg hl] at h
      obtain ⟨c, hc, h⟩ := Res.bind_eq_ok.mp h
      obtain ⟨v, hv, h⟩ := Res.bind_eq_ok.mp h
      obtain ⟨i, hi, h⟩ := Res.bind_eq_ok.mp h
      obtain ⟨v', hv', h⟩ := Res.bind_eq_ok.mp h
      obtain ⟨s, hs, h⟩ := Res.bind_eq_ok.mp h
      obtain ⟨n, hn, h⟩ := Res.bind_eq_ok.mp h
      obtain ⟨q, hq, h⟩ := Res.bind_eq_ok.mp h
      obtain ⟨w, hw, h⟩ := Res.bind_eq_ok.mp h
      obtain ⟨d, hd, h⟩ := Res.bind_eq_ok.mp h
      cases h
      refine ⟨⟨i, s, d, false⟩, by simpa using hl, index_text hv hi,
        fun _ => ⟨index_text hv' hs, index_text hw hd⟩, sealText_head (chk := chk) ?_⟩
      unfold Messaging.sealText
      dsimp only
      rw [if_neg (by decide), hc, Res.ok_bind]
      unfold Seal.sText
      rw [hn, Res.ok_bind, hq, Res.ok_bind]

theorem wigerTexts_ok {chk : Bool} : ∀ {l : List Siger} {t : Str}, wigerTexts chk l = .ok t →
    Messaging.sigTexts chk l = .ok t ∧ ∀ w ∈ l, transferable w.verfer = false := by
  intro l
  induction l with
  | nil => intro t h; exact ⟨h, by simp⟩
  | cons w l ih =>
    intro t h
    unfold wigerTexts at h
    split at h
    · cases h
    · rename_i hw
      obtain ⟨a, h1, h⟩ := Res.bind_eq_ok.mp h
      obtain ⟨r, h2, h⟩ := Res.bind_eq_ok.mp h
      cases h
      obtain ⟨h3, h4⟩ := ih h2
      refine ⟨?_, ?_⟩
      · unfold Messaging.sigTexts
        rw [h1, Res.ok_bind, h3, Res.ok_bind]
      · intro x hx
        rcases List.mem_cons.mp hx with rfl | hx
        · simpa using hw
        · exact h4 x hx

/-- C81, partial: an endorsement of the sample code is the header for the seal, then exactly the controller's signatures in order,
then exactly the witnesses' signatures, all by non-transferable keys; a reader taking one element after the other gets them back.
Missing: the group for `cigars`, see `C81_false`. -/
theorem C81_partial (chk : Bool) (sigers : Option (List Siger)) (sl : Option Sample.Seal) (wigers : Option (List Siger))
    (cigars : Option (List Cigar)) (e : Str) (h : endorseSerder chk sigers sl wigers cigars = .ok e)
    (hs : ∀ l, sigers = some l → l.length < 2 ^ 32 ∧ ∀ g ∈ l, Written g.i) (hw : ∀ l, wigers = some l → l.length < 2 ^ 32 ∧ ∀ g ∈ l, Written g.i) :
    ∃ head a b c, e = head ++ (a ++ (b ++ c)) ∧ (sigers = none → head = [] ∧ a = []) ∧
      (∀ l, sigers = some l → SampleSealHead sl head ∧ ∀ rest, StartsWithGroup chk (str% "-A") (l.map Siger.i) (a ++ rest) rest) ∧
      (wigers = none → b = []) ∧
      (∀ l, wigers = some l → (∀ w ∈ l, transferable w.verfer = false) ∧ ∀ rest, StartsWithGroup chk (str% "-B") (l.map Siger.i) (b ++ rest) rest) ∧
      (cigars = none → c = []) := by
  unfold endorseSerder at h
  split at h
  · cases h
  obtain ⟨x, hx, h⟩ := Res.bind_eq_ok.mp h
  obtain ⟨y, hy, h⟩ := Res.bind_eq_ok.mp h
  obtain ⟨z, hz, h⟩ := Res.bind_eq_ok.mp h
  cases h
  have key : ∃ head a, x = head ++ a ∧ (sigers = none → head = [] ∧ a = []) ∧
      (∀ l, sigers = some l → SampleSealHead sl head ∧ ∀ rest, StartsWithGroup chk (str% "-A") (l.map Siger.i) (a ++ rest) rest) := by
    cases sigers with
    | none => cases hx; exact ⟨[], [], rfl, fun _ => ⟨rfl, rfl⟩, by simp⟩
    | some l =>
      dsimp only at hx
      obtain ⟨hd, h1, hx⟩ := Res.bind_eq_ok.mp hx
      obtain ⟨c, h2, hx⟩ := Res.bind_eq_ok.mp hx
      obtain ⟨t, h3, hx⟩ := Res.bind_eq_ok.mp hx
      cases hx
      refine ⟨hd, c ++ t, by simp, by simp, ?_⟩
      rintro l' rfl'
      cases rfl'
      exact ⟨sealPart_head h1, group_reads h2 h3 (hs l rfl).2 (hs l rfl).1⟩
  obtain ⟨head, a, rfl, k1, k2⟩ := key
  refine ⟨head, a, y, z, by simp, k1, k2, ?_, ?_, ?_⟩
  · rintro rfl; cases hy; rfl
  · rintro l rfl
    dsimp only at hy
    obtain ⟨c, h2, hy⟩ := Res.bind_eq_ok.mp hy
    obtain ⟨t, h3, hy⟩ := Res.bind_eq_ok.mp hy
    cases hy
    obtain ⟨h4, h5⟩ := wigerTexts_ok h3
    exact ⟨h5, group_reads h2 h4 (hw l rfl).2 (hw l rfl).1⟩
  · rintro rfl; cases hz; rfl

/-- C81: signatures by transferable keys are refused as witness signatures and as unindexed ones, and something has to be given. -/
theorem C81_reject (chk : Bool) (sigers : Option (List Siger)) (sl : Option Sample.Seal) (wigers : Option (List Siger)) (cigars : Option (List Cigar)) :
    (sigers = none → wigers = none → cigars = none → (endorseSerder chk sigers sl wigers cigars).isOk = false) ∧
    (∀ l, wigers = some l → ∀ w ∈ l, transferable w.verfer = true → (endorseSerder chk sigers sl wigers cigars).isOk = false) ∧
    (∀ l, cigars = some l → ∀ c ∈ l, transferable c.verfer = true → (endorseSerder chk sigers sl wigers cigars).isOk = false) := by
  refine ⟨?_, ?_, ?_⟩
  · rintro rfl rfl rfl
    unfold endorseSerder
    rw [if_pos (by simp)]
    rfl
  · rintro l rfl w hw ht
    rw [Bool.eq_false_iff]
    intro h
    obtain ⟨e, h⟩ := Res.isOk_iff.mp h
    unfold endorseSerder at h
    rw [if_neg (by simp)] at h
    obtain ⟨x, hx, h⟩ := Res.bind_eq_ok.mp h
    obtain ⟨y, hy, h⟩ := Res.bind_eq_ok.mp h
    dsimp only at hy
    obtain ⟨c, h2, hy⟩ := Res.bind_eq_ok.mp hy
    obtain ⟨t, h3, hy⟩ := Res.bind_eq_ok.mp hy
    rw [(wigerTexts_ok h3).2 w hw] at ht
    cases ht
  · rintro l rfl c hc ht
    rw [Bool.eq_false_iff]
    intro h
    obtain ⟨e, h⟩ := Res.isOk_iff.mp h
    unfold endorseSerder at h
    rw [if_neg (by simp)] at h
    obtain ⟨x, hx, h⟩ := Res.bind_eq_ok.mp h
    obtain ⟨y, hy, h⟩ := Res.bind_eq_ok.mp h
    obtain ⟨z, hz, h⟩ := Res.bind_eq_ok.mp h
    dsimp only at hz
    obtain ⟨d, h2, hz⟩ := Res.bind_eq_ok.mp hz
    obtain ⟨t, h3, hz⟩ := Res.bind_eq_ok.mp hz
    have key : ∀ {l : List Cigar} {t : Str}, cigarTexts chk l = .ok t → ∀ c ∈ l, transferable c.verfer = false := by
      intro l
      induction l with
      | nil => simp
      | cons a l ih =>
        intro t h x hx
        unfold cigarTexts at h
        split at h
        · cases h
        · rename_i hn
          obtain ⟨u, -, h⟩ := Res.bind_eq_ok.mp h
          obtain ⟨v, hv, h⟩ := Res.bind_eq_ok.mp h
          rcases List.mem_cons.mp hx with rfl | hx
          · simpa using hn
          · exact ih hv x hx
    rw [key h3 c hc] at ht
    cases ht

/-- A witness signature of the examples. -/
private def exWit (n : Nat) : Siger := ⟨(exSig n).i, ⟨str% "B", 0, List.replicate 32 (UInt8.ofNat n)⟩⟩

/-- The hypotheses of `C81_partial` are met: two signatures of the controller with a seal and one of a witness. -/
example (chk : Bool) : (endorseSerder chk (some [exSig 0, exSig 1]) (some ⟨.obj [(str% "i", .str exD0), (str% "s", .str (str% "1f")), (str% "d", .str exD1)], false⟩)
      (some [exWit 2]) none).isOk = true ∧ ∀ g ∈ [exSig 0, exSig 1, exWit 2], Written g.i := by
  constructor
  · cases chk <;> decide +kernel
  · intro g hg
    simp only [List.mem_cons, List.not_mem_nil, or_false] at hg
    rcases hg with rfl | rfl | rfl
    · exact exSig_written _ (by decide)
    · exact exSig_written _ (by decide)
    · exact exSig_written 2 (by decide)

/-- C81: the group of unindexed signatures leaves out the keys. Whoever signed, the endorsement with the same signature values is
the same. -/
theorem C81_keys (chk : Bool) (sigers : Option (List Siger)) (sl : Option Sample.Seal) (wigers : Option (List Siger)) (l l' : List Cigar)
    (hm : l.map Cigar.m = l'.map Cigar.m) (h : ∀ c ∈ l, transferable c.verfer = false) (h' : ∀ c ∈ l', transferable c.verfer = false) :
    endorseSerder chk sigers sl wigers (some l) = endorseSerder chk sigers sl wigers (some l') := by
  have key : ∀ l l' : List Cigar, l.map Cigar.m = l'.map Cigar.m → (∀ c ∈ l, transferable c.verfer = false) → (∀ c ∈ l', transferable c.verfer = false) →
      cigarTexts chk l = cigarTexts chk l' := by
    intro l
    induction l with
    | nil => intro l' hm _ _; rw [List.map_eq_nil_iff.mp hm.symm]
    | cons a l ih =>
      intro l' hm h h'
      cases l' with
      | nil => cases hm
      | cons a' l' =>
        rw [List.map_cons, List.map_cons, List.cons.injEq] at hm
        unfold cigarTexts
        rw [if_neg (by rw [h a (by simp)]; decide), if_neg (by rw [h' a' (by simp)]; decide), hm.1,
          ih l' hm.2 (fun c hc => h c (by simp [hc])) (fun c hc => h' c (by simp [hc]))]
  have hl : l.length = l'.length := by simpa using congrArg List.length hm
  unfold endorseSerder
  rw [if_neg (by simp), if_neg (by simp)]
  dsimp only
  rw [key l l' hm h h', hl]

/-- C81 in full is false: two endorsements by different keys are the same text, so that none of them says who signed. -/
theorem C81_false (chk : Bool) : ∃ (m k k' : M) (e : Str), k ≠ k' ∧ endorseSerder chk none none none (some [⟨m, k⟩]) = .ok e ∧
    endorseSerder chk none none none (some [⟨m, k'⟩]) = .ok e := by
  let m : M := ⟨str% "0B", 0, List.replicate 64 7⟩
  let k : M := ⟨str% "B", 0, List.replicate 32 1⟩
  let k' : M := ⟨str% "B", 0, List.replicate 32 2⟩
  obtain ⟨e, he⟩ := Res.isOk_iff.mp (show (endorseSerder chk none none none (some [⟨m, k⟩])).isOk = true by cases chk <;> decide +kernel)
  refine ⟨m, k, k', e, by decide, he, ?_⟩
  rw [← he]
  refine (C81_keys chk none none none _ _ rfl ?_ ?_).symm <;> (intro c hc; rw [List.mem_singleton.mp hc]; decide +kernel)

end Keride.Props
