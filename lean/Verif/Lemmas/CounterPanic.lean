/-
Exactly which texts, of any characters, make the text parser of `Counter` panic.
-/
import Verif.Lemmas.Counter
import Verif.Lemmas.MatterPanic3

namespace Keride.Counter

open Spec Str

theorem hard_table : ∀ e ∈ hardageTable, (e.2 = 2 ∨ (e.1 = str% "-0" ∧ e.2 = 3) ∨ (e.1 = str% "--" ∧ e.2 = 5)) := by decide

theorem counter_rows : (∀ e ∈ counterCodes, sizage e.1 = .ok ⟨e.1.length, e.2, e.1.length + e.2, 0⟩) ∧
    ∀ e ∈ sizageTable, (e.1, e.2.ss) ∈ counterCodes ∧ e.1.length = e.2.hs := by
  constructor <;> decide +kernel

theorem exfil_panic_all {s : Str} : exfil s = .panic ↔
    Str.len s = 1 ∨ Splits s 2 ∨ (str% "-0" <+: s ∧ Splits s 3) ∨ (str% "--" <+: s ∧ Splits s 5) ∨
    ∃ c n, (c, n) ∈ counterCodes ∧ c <+: s ∧ Splits s (c.length + n) := by
  constructor
  · intro h
    unfold exfil at h
    split at h
    · cases h
    rename_i h0
    have hpos : 0 < Str.len s := by
      match s, h0 with
      | c :: s, _ =>
        have := c.utf8Size_pos
        rw [len]; omega
    by_cases h2 : Str.len s = 1
    · exact .inl h2
    right
    rcases sliceTo_cases (s := s) (n := 2) (by omega) with ⟨f, t, hf, hfl, hfs⟩ | ⟨hsp, -⟩
    swap
    · exact .inl hsp
    right
    rw [hfs, Res.ok_bind] at h
    rcases Res.bind_eq_panic.mp h with h | ⟨k, h1, h⟩
    · exact absurd h Res.ofOption_ne_panic
    have hpre : f <+: s := ⟨t, hf.symm⟩
    split at h
    · cases h
    rename_i h3
    rcases sliceTo_cases (s := s) (n := k) (by omega) with ⟨c, r, hc, hcl, hcs⟩ | ⟨hsp, -⟩
    swap
    · rcases hard_table _ (lookup_mem (Res.ofOption_eq_ok.mp h1)) with e | ⟨e1, e2⟩ | ⟨e1, e2⟩
      · exfalso
        simp only at e
        rw [e] at hsp
        rw [splits_panic hsp] at hfs
        cases hfs
      · simp only at e1 e2
        rw [e2] at hsp
        rw [e1] at hpre
        exact .inl ⟨hpre, hsp⟩
      · simp only at e1 e2
        rw [e2] at hsp
        rw [e1] at hpre
        exact .inr (.inl ⟨hpre, hsp⟩)
    right; right
    rw [hcs, Res.ok_bind] at h
    rcases Res.bind_eq_panic.mp h with h | ⟨z, hz, h⟩
    · exact absurd h Res.ofOption_ne_panic
    obtain ⟨hm, hlen⟩ := counter_rows.2 _ (sizage_mem hz)
    simp only at hm hlen
    refine ⟨c, z.ss, hm, ⟨r, hc.symm⟩, ?_⟩
    rw [hlen]
    dsimp only at h
    split at h
    · cases h
    rename_i h4
    rcases sliceTo_cases (s := s) (n := z.hs + z.ss) (by omega) with ⟨a, b, ha, hal, has⟩ | ⟨hsp, -⟩
    swap
    · exact hsp
    exfalso
    have hr := row_ok hz
    have hcz : len c = z.hs := by rw [hr.b64.ascii.len, hr.len]
    obtain ⟨u, rfl⟩ := prefix_of_len hc ha (by omega)
    rw [Str.slice, if_neg (by omega), has, Res.ok_bind, ← hcz, from_append, Res.ok_bind] at h
    rcases Res.bind_eq_panic.mp h with h | ⟨n, -, h⟩
    · exact b64ToU64_ne_panic _ h
    · cases h
  · intro h
    have hne : s ≠ [] := by
      rintro rfl
      have hsp : ∀ n, ¬ Splits [] n := fun n h => by
        have := splits_lt h
        simp [len] at this
      rcases h with h | h | ⟨-, h⟩ | ⟨-, h⟩ | ⟨c, n, -, -, h⟩
      · simp [len] at h
      all_goals exact hsp _ h
    unfold exfil
    rw [if_neg hne]
    have two : ∀ {f r : Str}, s = f ++ r → Ascii f → f.length = 2 → Str.sliceTo s 2 = .ok f := by
      intro f r he hA hl
      have : len f = 2 := by rw [hA.len, hl]
      rw [he, ← this]
      exact to_append
    have dash : ∀ {f r : Str} {k : Nat}, s = f ++ r → Ascii f → f.length = 2 → hardage f = .ok k → Splits s k →
        (do
          let first ← Str.sliceTo s 2
          let hs ← hardage first
          if Str.len s < hs then .err .shortage
          else do
            let hard ← Str.sliceTo s hs
            let z ← sizage hard
            let cs := z.hs + z.ss
            if Str.len s < cs then .err .shortage
            else do
              let countB64 ← Str.slice s z.hs cs
              let count ← b64ToU64 countB64
              .ok ⟨hard, count % 2 ^ 32⟩ : Res C) = .panic := by
      intro f r k he hA hl hk hsp
      rw [two he hA hl, Res.ok_bind, hk, Res.ok_bind, if_neg (by have := splits_lt hsp; omega), splits_panic hsp]
      rfl
    rcases h with h | h | ⟨⟨r, hr⟩, h⟩ | ⟨⟨r, hr⟩, h⟩ | ⟨c, n, hm, ⟨r, hr⟩, h⟩
    · have : Str.sliceTo s 2 = .panic := by
        match s, hne with
        | c :: t, _ =>
          have hc := c.utf8Size_pos
          rw [len] at h
          have ht : t = [] := by
            cases t with
            | nil => rfl
            | cons d t =>
              have := d.utf8Size_pos
              rw [len] at h
              omega
          subst ht
          rw [len] at h
          have hc : c.utf8Size = 1 := by omega
          simp [Str.sliceTo, hc]
      rw [this]
      rfl
    · rw [splits_panic h]
      rfl
    · exact dash hr.symm (by intro c hc; revert c; decide) rfl (by decide) h
    · exact dash hr.symm (by intro c hc; revert c; decide) rfl (by decide) h
    · have hz := counter_rows.1 _ hm
      have hrow := row_ok hz
      simp only at hz hrow
      have h2 := hrow.hs2
      simp only at h2
      have hA := hrow.b64.ascii
      have e1 := two (f := c.take 2) (r := c.drop 2 ++ r) (by rw [← List.append_assoc, List.take_append_drop, hr]) (hA.take 2)
        (by rw [List.length_take]; omega)
      have hh := hrow.hard
      simp only at hh
      have hlt := splits_lt h
      have hcl : len c = c.length := hA.len
      have e2 : Str.sliceTo s c.length = .ok c := by rw [← hr, ← hcl]; exact to_append
      rw [e1, Res.ok_bind, hh, Res.ok_bind, if_neg (by omega), e2, Res.ok_bind, hz, Res.ok_bind]
      dsimp only
      rw [if_neg (by omega), Str.slice, if_neg (by omega), splits_panic h]
      rfl

end Keride.Counter
