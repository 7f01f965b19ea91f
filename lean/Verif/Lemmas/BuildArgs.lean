/-
What the checks of the event builders of sample/keri establish about their arguments.
-/
import Verif.Lemmas.BuildIncept
import Verif.Spec.Control

namespace Keride.Sample

open Matter Spec Props

theorem eraseDups_length_le : ∀ (n : Nat) (l : List Str), l.length ≤ n → l.eraseDups.length ≤ l.length
  | 0, l, h => by
    have : l = [] := List.length_eq_zero_iff.mp (by omega)
    subst this; simp
  | n + 1, [], _ => by simp
  | n + 1, a :: l, h => by
    rw [List.eraseDups_cons]
    have h1 := List.length_filter_le (fun b => !b == a) l
    simp only [List.length_cons] at h ⊢
    have h2 := eraseDups_length_le n (l.filter fun b => !b == a) (by omega)
    omega

theorem nodup_of_repeats : ∀ {l : List Str}, repeats l = false → l.Nodup
  | [], _ => List.nodup_nil
  | a :: l, h => by
    have h' : (a :: l).eraseDups.length = (a :: l).length := by simpa [repeats] using h
    rw [List.eraseDups_cons] at h'
    simp only [List.length_cons, Nat.add_right_cancel_iff] at h'
    have h1 := List.length_filter_le (fun b => !b == a) l
    have h2 := eraseDups_length_le _ (l.filter fun b => !b == a) (Nat.le_refl _)
    have h3 : (l.filter fun b => !b == a) = l := by
      have := (List.filter_sublist (p := fun b => !b == a) (l := l)).eq_of_length (by omega)
      exact this
    rw [h3] at h'
    have ha : a ∉ l := by
      intro hm
      rw [← h3] at hm
      simp at hm
    exact List.nodup_cons.mpr ⟨ha, nodup_of_repeats (by simp [repeats, h'])⟩

theorem repeats_of_nodup : ∀ {l : List Str}, l.Nodup → repeats l = false
  | [], _ => by simp [repeats]
  | a :: l, h => by
    obtain ⟨h1, h2⟩ := List.nodup_cons.mp h
    have ih := repeats_of_nodup h2
    have h3 : (l.filter fun b => !b == a) = l := by
      rw [List.filter_eq_self]
      intro b hb
      have : b ≠ a := fun e => h1 (e ▸ hb)
      simp [this]
    have ih' : l.eraseDups.length = l.length := by simpa [repeats] using ih
    simp [repeats, List.eraseDups_cons, h3, ih']

theorem size_of_num {chk : Bool} {json : Str → Res Value} {v : Value} {t : Tholder} {k : Nat} (h : Tholder.newWithSith chk json v = .ok t)
    (hk : t.num = .ok (some k)) : t.size = k := by
  rcases accepted_wf (chk := chk) (json := json) ⟨none, none, some v, h⟩ with ⟨m, hw⟩ | ⟨rs, hrs⟩
  · obtain ⟨hle, m', hm, rfl⟩ := hw
    unfold Tholder.num at hk
    rw [if_neg (by simp)] at hk
    simp only [Value.toI64, Res.ok_bind] at hk
    split at hk
    · simpa using hk
    · cases hk
  · rw [Tholder.num, if_pos hrs.weighted] at hk
    cases hk

theorem sensible_of {chk : Bool} {json : Str → Res Value} {v : Value} {t : Tholder} {n : Nat} (h : Tholder.newWithSith chk json v = .ok t) (hs : t.size ≤ n)
    (hn : ∃ k, t.num = .ok k ∧ 1 ≤ k.getD 1) : Sensible t n := by
  have hacc : Accepted chk json t := ⟨none, none, some v, h⟩
  obtain ⟨k, hk, h1⟩ := hn
  constructor
  · intro j hj
    have := size_of_num h hj
    rw [hk] at hj
    cases hj
    exact ⟨h1, by omega⟩
  · intro qss hq hp
    obtain ⟨rs, hrs, rfl⟩ := accepted_weights hacc hq
    rw [Tholder.positions_vals] at hp ⊢
    rw [← Tholder.wf_size hrs hp]
    exact hs

/-- A numeric threshold that the builders accept is met by all keys together. -/
theorem covers_of_num {t : Tholder} {n k : Nat} (h : Sensible t n) (hk : t.num = .ok (some k)) : Covers t n :=
  .inl ⟨k, hk, (h.1 k hk).1, (h.1 k hk).2⟩

theorem number_covers {chk : Bool} {json : Str → Res Value} {v : Value} {t : Tholder} {n : Nat} (h : Tholder.newWithSith chk json v = .ok t)
    (hv : ∃ i, v = .int i) (hs : Sensible t n) : Covers t n := by
  obtain ⟨i, rfl⟩ := hv
  obtain ⟨h1, h2⟩ := C28_number chk json i
  by_cases hi : 0 ≤ i ∧ i < 2 ^ 32
  · obtain ⟨t', -, h3, -, h4, -⟩ := h1 hi
    rw [h] at h3
    cases h3
    exact covers_of_num hs h4
  · have := (h2 hi).2
    rw [h] at this
    cases this

/-- What the field of the witness threshold says. -/
theorem toad_text {m : M} {intive : Bool} {bt : Value} (h : toadField m intive = .ok bt) : ∃ k, Number.num m = .ok k ∧
    (bt = .int k ∨ bt = .str (Nat.toDigits 16 k)) := by
  unfold toadField at h
  obtain ⟨k, hk, h⟩ := Res.bind_eq_ok.mp h
  refine ⟨k, hk, ?_⟩
  split at h
  · cases h; exact .inl rfl
  · obtain ⟨x, hx, h⟩ := Res.bind_eq_ok.mp h
    cases h
    rw [Number.numh, hk, Res.ok_bind] at hx
    exact .inr (by rw [← Res.ok.inj hx, fmtNat_eq (by decide) (by decide)])

theorem num_of_num {n k : Nat} {m : M} (hm : Number.newWithNum n = .ok m) (hk : Number.num m = .ok k) (hn : n < 2 ^ 128) : k = n := by
  obtain ⟨m', h1, h2, -⟩ := C23_lossless true n hn
  rw [hm] at h1
  cases h1
  exact Res.ok.inj (hk.symm.trans h2)

theorem ample_ok (chk : Bool) {n : Nat} (h1 : 1 ≤ n) (h2 : n < 2 ^ 126) : ample chk n none none = .ok (min n ((n + max 1 ((n - 1) / 3) + 3) / 2)) := by
  have key : ∀ x : Int, 0 ≤ x → x < 2 ^ 128 → u128 chk x = .ok x.toNat := by
    intro x a b
    rw [u128, if_pos ⟨a, b⟩]
  unfold ample
  dsimp only [Option.getD]
  rw [key _ (by omega) (by omega), Res.ok_bind, Res.ok_bind, key _ (by omega) (by omega), Res.ok_bind, if_pos (by trivial), key _ (by omega) (by omega), Res.ok_bind,
    key _ (by omega) (by omega), Res.ok_bind, key _ (by omega) (by omega), Res.ok_bind, key _ (by omega) (by omega), Res.ok_bind]
  congr 1
  omega

/-- The witness threshold an event gets, for `l` witnesses. -/
structure Toad (toad : Option Nat) (l k : Nat) : Prop where
  zero : l = 0 → k = 0
  within : l ≠ 0 → 1 ≤ k ∧ k ≤ l
  given : ∀ n, toad = some n → n < 2 ^ 128 → k = n
  default : toad = none → l ≠ 0 → l < 2 ^ 126 → k = min l ((l + max 1 ((l - 1) / 3) + 3) / 2)

theorem inceptToader_ok {chk : Bool} {toad : Option Nat} {wits : List Str} {m : M} {k : Nat} (h : inceptToader chk toad wits = .ok m)
    (hk : Number.num m = .ok k) : Toad toad wits.length k := by
  unfold inceptToader at h
  obtain ⟨m', hm', h⟩ := Res.bind_eq_ok.mp h
  obtain ⟨j, hj, h⟩ := Res.bind_eq_ok.mp h
  have hmm : m' = m ∧ (wits.length = 0 → j = 0) ∧ (wits.length ≠ 0 → 1 ≤ j ∧ j ≤ wits.length) := by
    cases wits with
    | nil =>
      simp only [List.isEmpty_nil] at h
      rw [if_neg (by decide)] at h
      obtain ⟨a, h⟩ := if_err h
      cases h
      exact ⟨rfl, fun _ => by omega, by simp⟩
    | cons w l =>
      simp only [List.isEmpty_cons] at h
      rw [if_pos (by decide)] at h
      obtain ⟨a, h⟩ := if_err h
      cases h
      exact ⟨rfl, by simp, fun _ => by omega⟩
  obtain ⟨rfl, e1, e2⟩ := hmm
  have hjk : j = k := Res.ok.inj (hj.symm.trans hk)
  subst hjk
  refine ⟨e1, e2, ?_, ?_⟩
  · rintro n rfl hn
    exact num_of_num hm' hk hn
  · rintro rfl hl hl'
    dsimp only at hm'
    rw [if_neg (by simpa using hl)] at hm'
    obtain ⟨x, hx, hm'⟩ := Res.bind_eq_ok.mp hm'
    rw [ample_ok chk (by omega) hl'] at hx
    cases hx
    exact num_of_num hm' hk (by omega)

theorem rotateToader_ok {chk : Bool} {toad : Option Nat} {wits : List Str} {m : M} {k : Nat} (h : rotateToader chk toad wits = .ok m)
    (hk : Number.num m = .ok k) : Toad toad wits.length k := by
  unfold rotateToader at h
  obtain ⟨m', hm', h⟩ := Res.bind_eq_ok.mp h
  obtain ⟨j, hj, h⟩ := Res.bind_eq_ok.mp h
  have hmm : m' = m ∧ (wits.length = 0 → j = 0) ∧ (wits.length ≠ 0 → 1 ≤ j ∧ j ≤ wits.length) := by
    cases wits with
    | nil =>
      simp only [List.isEmpty_nil] at h
      rw [if_pos (by decide)] at h
      obtain ⟨a, h⟩ := if_err h
      cases h
      exact ⟨rfl, fun _ => by omega, by simp⟩
    | cons w l =>
      simp only [List.isEmpty_cons] at h
      rw [if_neg (by decide)] at h
      obtain ⟨a, h⟩ := if_err h
      cases h
      exact ⟨rfl, by simp, fun _ => by omega⟩
  obtain ⟨rfl, e1, e2⟩ := hmm
  have hjk : j = k := Res.ok.inj (hj.symm.trans hk)
  subst hjk
  refine ⟨e1, e2, ?_, ?_⟩
  · rintro n rfl hn
    exact num_of_num hm' hk hn
  · rintro rfl hl hl'
    dsimp only at hm'
    obtain ⟨x, hx, hm'⟩ := Res.bind_eq_ok.mp hm'
    rw [if_neg (by simpa using hl), ample_ok chk (by omega) hl'] at hx
    cases hx
    exact num_of_num hm' hk (by omega)

theorem removeEach_length : ∀ {is : List Nat} {l r : List Str}, removeEach is l = .ok r → r.length + is.length = l.length
  | [], l, r, h => by cases h; simp
  | i :: is, l, r, h => by
    unfold removeEach at h
    split at h
    · rename_i hi
      have := removeEach_length h
      rw [List.length_eraseIdx_of_lt hi] at this
      simp only [List.length_cons]
      omega
    · cases h

theorem cutPositions_length (wits cuts : List Str) : (cutPositions wits cuts).length + (wits.filter fun w => w ∉ cuts).length = wits.length := by
  unfold cutPositions
  rw [List.length_map]
  have key : ∀ (l : List Str) (k : Nat), ((l.zipIdx k).filter fun e => cuts.contains e.1).length + (l.filter fun w => w ∉ cuts).length = l.length := by
    intro l
    induction l with
    | nil => intro k; simp
    | cons a l ih =>
      intro k
      have := ih (k + 1)
      rw [List.zipIdx_cons]
      by_cases ha : a ∈ cuts
      · rw [List.filter_cons_of_pos (by simpa using ha), List.filter_cons_of_neg (by simpa using ha)]
        simp only [List.length_cons]
        omega
      · rw [List.filter_cons_of_neg (by simpa using ha), List.filter_cons_of_pos (by simpa using ha)]
        simp only [List.length_cons]
        omega
  exact key wits 0

theorem newWits_length {wits cuts adds r : List Str} (h : newWits wits cuts adds = .ok r) :
    r.length = (wits.filter fun w => w ∉ cuts).length + adds.length := by
  unfold newWits at h
  obtain ⟨l, hl, h⟩ := Res.bind_eq_ok.mp h
  cases h
  have h1 := removeEach_length hl
  have h2 := cutPositions_length wits cuts
  rw [List.length_append]
  omega

end Keride.Sample
