/-
Lemmas about paths.
-/
import Verif.Model.Pather
import Verif.Spec.Path
import Verif.Lemmas.Text
import Verif.Lemmas.SaiderVerify
import Verif.Lemmas.Counter
import Verif.Lemmas.Tholder
import Verif.Props.Dater

namespace Keride.Pather

open Spec Matter Saider

theorem split_join : ∀ {ps : List Str}, ps ≠ [] → (∀ p ∈ ps, '-' ∉ p) → splitChar '-' (joinWith '-' ps) = ps
  | [], h, _ => absurd rfl h
  | [p], _, h => by
    rw [joinWith]
    exact Counter.splitChar_nosep _ _ (h p (by simp))
  | p :: q :: ps, _, h => by
    rw [joinWith, Counter.splitChar_append _ _ _ (h p (by simp)), split_join (by simp) (fun x hx => h x (by simp [List.mem_cons.mp hx]))]
    simp

theorem join_base64 : ∀ {ps : List Str}, (∀ p ∈ ps, IsBase64 p) → IsBase64 (joinWith '-' ps)
  | [], _ => by intro c hc; cases hc
  | [p], h => h p (by simp)
  | p :: q :: ps, h => by
    rw [joinWith]
    intro c hc
    rcases List.mem_append.mp hc with hc | hc
    · exact h p (by simp) c hc
    · rcases List.mem_cons.mp hc with rfl | hc
      · decide
      · exact join_base64 (fun x hx => h x (by simp [List.mem_cons.mp hx])) c hc
    simp

theorem join_length : ∀ ps : List Str, (joinWith '-' ps).length ≤ (ps.map fun p => p.length + 1).sum
  | [] => by simp [joinWith]
  | [p] => by simp [joinWith]
  | p :: q :: ps => by
    have := join_length (q :: ps)
    rw [joinWith, List.map_cons, List.sum_cons, List.length_append, List.length_cons]
    · omega
    · simp

/-- Paths are Base64 texts. -/
theorem newWithBext_eq (t : Str) : newWithBext t = Bexter.newWithBext t := by
  rw [Bexter.newWithBext_eq]
  rfl

theorem newWithQb64_eq (s : Str) : newWithQb64 s = Bexter.newWithQb64 s := rfl
theorem newWithQb2_eq (s : Bytes) : newWithQb2 s = Bexter.newWithQb2 s := rfl

theorem newWithPath_eq (v : Value) : newWithPath v = bextify v >>= fun b => newWithBext b := by
  unfold newWithPath newWithBext new
  dsimp only [Option.getD_none]
  rw [if_pos (by simp)]
  cases bextify v <;> rfl

theorem bextify_ok {vs : List Value} {ps : List Str} (h : List.Forall₂ Names vs ps) (hb : ∀ p ∈ ps, IsBase64 p) :
    bextify (.arr vs) = .ok ('-' :: joinWith '-' ps) := by
  unfold bextify
  rw [show (Value.arr vs).toVec = .ok vs from rfl, Res.ok_bind]
  have : List.Forall₂ (fun e p => (component e >>= fun p => if reB64 p = false then .err .value else .ok p) = .ok p) vs ps := by
    induction h with
    | nil => exact .nil
    | @cons v p vs ps hn _ ih =>
      refine .cons ?_ (ih fun p hp => hb p (List.mem_cons_of_mem _ hp))
      have hc : component v = .ok p := by
        cases hn with
        | text s => rfl
        | number n =>
          change Res.ok (Tholder.fmtInt (n : Int)) = _
          rw [Tholder.fmtInt_nat, fmtNat_eq (by decide) (by decide)]
      rw [hc, Res.ok_bind, if_neg]
      rw [reB64_iff.mpr (hb p (by simp))]
      simp
  rw [Res.mapList_ok.mpr this]
  rfl

theorem names_text (ps : List Str) : List.Forall₂ Names (ps.map .str) ps := by
  induction ps with
  | nil => exact .nil
  | cons p ps ih => exact .cons (.text p) ih

/-- The path of a Base64 text that starts with `-`. -/
theorem path_of_bext {m : M} {ps : List Str} (h : Bexter.bext m = .ok ('-' :: joinWith '-' ps)) (hp : ∀ p ∈ ps, p ≠ [] ∧ '-' ∉ p) :
    path m = .ok ps := by
  unfold path
  rw [h, Res.ok_bind]
  dsimp only
  cases ps with
  | nil => rfl
  | cons p ps =>
    change (if (splitChar '-' (joinWith '-' (p :: ps))).head? = some [] then Res.ok [] else Res.ok (splitChar '-' (joinWith '-' (p :: ps)))) = _
    rw [split_join (by simp) (fun x hx => (hp x hx).2), if_neg]
    simp only [List.head?_cons, Option.some.injEq]
    exact (hp p (by simp)).1

theorem size_ok {ps : List Str} (h : pathSize ps ≤ 4 * (64 ^ 4 - 1)) : ('-' :: joinWith '-' ps).length ≤ 4 * (64 ^ 4 - 1) := by
  have := join_length ps
  rw [List.length_cons]
  unfold pathSize at h
  omega

theorem path_base64 {ps : List Str} (h : ∀ p ∈ ps, IsComponent p) : IsBase64 ('-' :: joinWith '-' ps) := by
  intro c hc
  rcases List.mem_cons.mp hc with rfl | hc
  · decide
  · exact join_base64 (fun p hp => (h p hp).2.1) c hc

/-- What `newWithPath` gives for proper components. -/
theorem newWithPath_ok (chk : Bool) {vs : List Value} {ps : List Str} (h : List.Forall₂ Names vs ps) (hc : ∀ p ∈ ps, IsComponent p)
    (hl : pathSize ps ≤ 4 * (64 ^ 4 - 1)) :
    ∃ m, newWithPath (.arr vs) = .ok m ∧ newWithPath (.arr (ps.map .str)) = .ok m ∧ newWithBext ('-' :: joinWith '-' ps) = .ok m ∧
      Bexter.bext m = .ok ('-' :: joinWith '-' ps) ∧ path m = .ok ps ∧
      (∃ s, qb64 chk m = .ok s ∧ newWithQb64 s = .ok m) ∧ (∃ b, qb2 m = .ok b ∧ newWithQb2 b = .ok m) := by
  have hb : ∀ p ∈ ps, IsBase64 p := fun p hp => (hc p hp).2.1
  obtain ⟨m, h1, h2, ⟨s, h3, h4, -⟩, b, h5, h6⟩ := Props.C27_roundtrip_partial chk _ (path_base64 hc) (size_ok hl) (by simp)
  have h1' : newWithBext ('-' :: joinWith '-' ps) = .ok m := by rw [newWithBext_eq, h1]
  refine ⟨m, ?_, ?_, h1', h2, path_of_bext h2 fun p hp => ⟨(hc p hp).1, (hc p hp).2.2⟩, ⟨s, h3, h4⟩, b, h5, h6⟩
  · rw [newWithPath_eq, bextify_ok h hb]; exact h1'
  · rw [newWithPath_eq, bextify_ok (names_text ps) hb]; exact h1'

/-! Decimal components -/

theorem toDigit10 {c : Char} : toDigit 10 c = if c ∈ str% "0123456789" then some (c.toNat - 48) else none := by
  have key : ∀ c : Char, c ∈ str% "0123456789" ↔ 48 ≤ c.toNat ∧ c.toNat ≤ 57 := by
    intro c
    constructor
    · intro h
      have : ∀ c ∈ str% "0123456789", 48 ≤ c.toNat ∧ c.toNat ≤ 57 := by decide
      exact this c h
    · rintro ⟨h1, h2⟩
      have : ∀ n, 48 ≤ n → n ≤ 57 → Char.ofNat n ∈ str% "0123456789" := by
        intro n h1 h2
        interval_cases n <;> decide
      have := this c.toNat h1 h2
      rwa [Char.ofNat_toNat] at this
  unfold toDigit
  dsimp only
  by_cases h : c ∈ str% "0123456789"
  · rw [if_pos h]
    have := (key c).mp h
    rw [if_pos this, if_pos (by omega)]
  · rw [if_neg h, if_neg (fun h' => h ((key c).mpr h')), if_neg]
    split_ifs <;> omega

theorem radixVal10 (s : Str) (a : Nat) : radixVal 10 a s =
    if ∀ c ∈ s, c ∈ str% "0123456789" then some (s.foldl (fun a c => a * 10 + (c.toNat - 48)) a) else none := by
  induction s generalizing a with
  | nil => simp [radixVal]
  | cons c s ih =>
    rw [radixVal, toDigit10]
    by_cases h : c ∈ str% "0123456789"
    · rw [if_pos h]
      dsimp only
      rw [ih]
      by_cases h2 : ∀ c ∈ s, c ∈ str% "0123456789"
      · rw [if_pos h2, if_pos (by intro x hx; rcases List.mem_cons.mp hx with rfl | hx; exacts [h, h2 x hx]), List.foldl_cons]
      · rw [if_neg h2, if_neg (fun h3 => h2 fun x hx => h3 x (List.mem_cons_of_mem _ hx))]
    · rw [if_neg h, if_neg (fun h3 => h (h3 c (by simp)))]

theorem stripPlus_id {s : Str} (h : '+' ∉ s) : stripPlus s = s := by
  cases s with
  | nil => rfl
  | cons c s =>
    rw [stripPlus, if_neg]
    rintro rfl
    exact h (by simp)

theorem index_iff {s : Str} (h : '+' ∉ s) (i : Nat) : parseUnsigned 10 usizeMax s = .ok i ↔ IsIndex s i := by
  unfold parseUnsigned IsIndex
  rw [stripPlus_id h, radixVal10]
  have hm : usizeMax = 2 ^ 64 - 1 := rfl
  by_cases hs : s = []
  · rw [if_pos hs]; simp [hs]
  rw [if_neg hs]
  by_cases hd : ∀ c ∈ s, c ∈ str% "0123456789"
  · rw [if_pos hd]
    dsimp only
    generalize s.foldl (fun a c => a * 10 + (c.toNat - 48)) 0 = n
    constructor
    · intro h
      split at h
      · cases h
        exact ⟨hs, hd, rfl, by omega⟩
      · cases h
    · rintro ⟨-, -, rfl, hlt⟩
      rw [if_pos (by omega)]
  · rw [if_neg hd]
    constructor
    · intro h; cases h
    · rintro ⟨-, h, -⟩; exact absurd h hd

theorem resolveAt_iff {ps : List Str} (hp : ∀ p ∈ ps, p ≠ [] ∧ '+' ∉ p) (v w : Value) : resolveAt ps v = .ok w ↔ Leads ps v w := by
  induction ps generalizing v with
  | nil =>
    rw [resolveAt]
    constructor
    · intro h; cases h; exact .here _
    · intro h; cases h; rfl
  | cons s ps ih =>
    have ih := ih (fun p hp' => hp p (List.mem_cons_of_mem _ hp'))
    obtain ⟨hne, hplus⟩ := hp s (by simp)
    have step_some : ∀ {x}, step v s = .ok (some x) → resolveAt (s :: ps) v = resolveAt ps x := by
      intro x h
      rw [resolveAt, h]
    have step_err : (∀ x, step v s ≠ .ok x) → ∀ w, resolveAt (s :: ps) v ≠ .ok w := by
      intro h w
      rw [resolveAt]
      cases hs : step v s with
      | ok x => exact absurd hs (h x)
      | err e => simp
      | panic => simp
    cases v with
    | obj o =>
      cases hi : parseUnsigned 10 usizeMax s with
      | ok i =>
        have hI := (index_iff hplus i).mp hi
        have hst : step (.obj o) s = Res.ofOption .value o[i]? >>= fun e => .ok (some e.2) := by
          unfold step; dsimp only; rw [hi]
        cases ho : o[i]? with
        | none =>
          rw [ho] at hst
          constructor
          · intro h
            exact absurd h (step_err (by rw [hst]; intro x h; cases h) w)
          · intro h
            cases h with
            | nth h1 h2 h3 =>
              have : Res.ok _ = Res.ok _ := hi.symm.trans ((index_iff hplus _).mpr h1)
              cases this
              rw [ho] at h2; cases h2
            | name h1 _ _ => exact absurd hI (h1 i)
        | some e =>
          rw [ho] at hst
          rw [step_some (by rw [hst]; rfl), ih]
          constructor
          · intro h
            exact .nth hI (k := e.1) (v := e.2) ho h
          · intro h
            cases h with
            | nth h1 h2 h3 =>
              have : Res.ok _ = Res.ok _ := hi.symm.trans ((index_iff hplus _).mpr h1)
              cases this
              rw [ho] at h2; cases h2; exact h3
            | name h1 _ _ => exact absurd hI (h1 i)
      | err e =>
        have hN : ∀ i, ¬ IsIndex s i := by
          intro i h
          rw [(index_iff hplus i).mpr h] at hi
          cases hi
        have hst : step (.obj o) s = Res.ofOption .value (Value.find s o) >>= fun e => .ok (some e) := by
          unfold step; dsimp only; rw [hi]; dsimp only; rw [if_neg hne]
        cases hf : Value.find s o with
        | none =>
          rw [hf] at hst
          constructor
          · intro h
            exact absurd h (step_err (by rw [hst]; intro x h; cases h) w)
          · intro h
            cases h with
            | nth h1 h2 h3 => exact absurd h1 (hN _)
            | name h1 h2 _ => rw [field_find, hf] at h2; cases h2
        | some x =>
          rw [hf] at hst
          rw [step_some (by rw [hst]; rfl), ih]
          constructor
          · intro h
            exact .name hN (by rw [field_find]; exact hf) h
          · intro h
            cases h with
            | nth h1 h2 h3 => exact absurd h1 (hN _)
            | name h1 h2 h3 => rw [field_find, hf] at h2; cases h2; exact h3
      | panic => exact absurd hi (parseUnsigned_ne_panic _ _ _)
    | arr l =>
      have hst : step (.arr l) s = parseUnsigned 10 usizeMax s >>= fun i => Res.ofOption .value l[i]? >>= fun e => .ok (some e) := rfl
      cases hi : parseUnsigned 10 usizeMax s with
      | ok i =>
        have hI := (index_iff hplus i).mp hi
        rw [hi, Res.ok_bind] at hst
        cases ho : l[i]? with
        | none =>
          rw [ho] at hst
          constructor
          · intro h
            exact absurd h (step_err (by rw [hst]; intro x h; cases h) w)
          · intro h
            cases h with
            | item h1 h2 h3 =>
              have : Res.ok _ = Res.ok _ := hi.symm.trans ((index_iff hplus _).mpr h1)
              cases this
              rw [ho] at h2; cases h2
        | some e =>
          rw [ho] at hst
          rw [step_some (by rw [hst]; rfl), ih]
          constructor
          · intro h
            exact .item hI ho h
          · intro h
            cases h with
            | item h1 h2 h3 =>
              have : Res.ok _ = Res.ok _ := hi.symm.trans ((index_iff hplus _).mpr h1)
              cases this
              rw [ho] at h2; cases h2; exact h3
      | err e =>
        rw [hi] at hst
        constructor
        · intro h
          exact absurd h (step_err (by rw [hst]; intro x h; cases h) w)
        · intro h
          cases h with
          | item h1 h2 h3 =>
            rw [(index_iff hplus _).mpr h1] at hi
            cases hi
      | panic => exact absurd hi (parseUnsigned_ne_panic _ _ _)
    | _ =>
      constructor
      · intro h; exact absurd h (step_err (by intro x h; cases h) w)
      · intro h; cases h

theorem resolveAt_ne_panic : ∀ (ps : List Str) (v : Value), resolveAt ps v ≠ .panic
  | [], v => by simp [resolveAt]
  | s :: ps, v => by
    rw [resolveAt]
    have hst : step v s ≠ .panic := by
      unfold step
      cases v with
      | obj o =>
        dsimp only
        cases parseUnsigned 10 usizeMax s with
        | ok i => dsimp only; cases o[i]? <;> simp [Res.ofOption]
        | err e =>
          dsimp only
          split
          · simp
          · cases Value.find s o <;> simp [Res.ofOption]
        | panic =>
          dsimp only
          split
          · simp
          · cases Value.find s o <;> simp [Res.ofOption]
      | arr l =>
        dsimp only
        cases hi : parseUnsigned 10 usizeMax s with
        | ok i => rw [Res.ok_bind]; cases l[i]? <;> simp [Res.ofOption]
        | err e => simp
        | panic => exact absurd hi (parseUnsigned_ne_panic _ _ _)
      | _ => simp
    split
    · exact resolveAt_ne_panic ps _
    · simp
    · simp
    · exact absurd ‹_› hst

/-! Paths that were read -/

theorem encode_plus : ∀ b : Bytes, '+' ∉ b64Encode b
  | a :: b :: c :: rest => by
    have h := encode_plus rest
    have k : ∀ n, n < 64 → '+' ≠ b64Chr n := by decide
    have ha := a.toNat_lt
    have hb := b.toNat_lt
    have hc := c.toNat_lt
    rw [b64Encode]
    simp only [List.mem_cons, not_or]
    exact ⟨k _ (by omega), k _ (by omega), k _ (by omega), k _ (by omega), h⟩
  | [a, b] => by
    have k : ∀ n, n < 64 → '+' ≠ b64Chr n := by decide
    have ha := a.toNat_lt
    have hb := b.toNat_lt
    rw [b64Encode]
    simp only [List.mem_cons, not_or]
    exact ⟨k _ (by omega), k _ (by omega), k _ (by omega), by decide, by simp⟩
  | [a] => by
    have k : ∀ n, n < 64 → '+' ≠ b64Chr n := by decide
    have ha := a.toNat_lt
    rw [b64Encode]
    simp only [List.mem_cons, not_or]
    exact ⟨k _ (by omega), k _ (by omega), by decide, by decide, by simp⟩
  | [] => by simp [b64Encode]

theorem split_mem {d x : Char} : ∀ {s : Str} {p : Str}, p ∈ splitChar d s → x ∈ p → x ∈ s
  | [], p, h, hx => by
    rw [splitChar] at h
    simp only [List.mem_singleton] at h
    subst h; exact hx
  | c :: s, p, h, hx => by
    rw [splitChar] at h
    split at h
    · rcases List.mem_cons.mp h with rfl | h
      · cases hx
      · exact List.mem_cons_of_mem _ (split_mem h hx)
    · split at h
      · simp only [List.mem_singleton] at h
        subst h
        simp only [List.mem_singleton] at hx
        simp [hx]
      · rename_i hs
        rcases List.mem_cons.mp h with rfl | h
        · rcases List.mem_cons.mp hx with rfl | hx
          · simp
          · exact List.mem_cons_of_mem _ (split_mem (hs ▸ List.mem_cons_self ..) hx)
        · exact List.mem_cons_of_mem _ (split_mem (hs ▸ List.mem_cons_of_mem _ h) hx)

theorem path_plus {m : M} {ps : List Str} (h : path m = .ok ps) : ∀ p ∈ ps, '+' ∉ p := by
  unfold path at h
  obtain ⟨b, hb, h⟩ := Res.bind_eq_ok.mp h
  have hp : '+' ∉ b := by
    unfold Bexter.bext at hb
    obtain ⟨z, -, hb⟩ := Res.bind_eq_ok.mp hb
    obtain ⟨pre, hpre, -⟩ := sliceFrom_ok hb
    intro hm
    exact encode_plus _ (hpre ▸ List.mem_append_right _ hm)
  split at h
  · rename_i rest
    dsimp only at h
    split at h
    · cases h; simp
    · cases h
      intro p hm hx
      exact hp (List.mem_cons_of_mem _ (split_mem hm hx))
  · cases h

theorem resolveAt_app : ∀ {ps qs : List Str} {v w : Value}, (∀ p ∈ ps, p ≠ []) → resolveAt ps v = .ok w →
    resolveAt (ps ++ qs) v = resolveAt qs w
  | [], _, v, w, _, h => by
    rw [resolveAt] at h
    cases h; rfl
  | s :: ps, qs, v, w, hp, h => by
    rw [resolveAt] at h
    rw [List.cons_append, resolveAt]
    cases hs : step v s with
    | ok x =>
      cases x with
      | some x =>
        simp only [hs] at h ⊢
        exact resolveAt_app (fun p hp' => hp p (List.mem_cons_of_mem _ hp')) h
      | none =>
        exfalso
        have hne := hp s (by simp)
        unfold step at hs
        cases v with
        | obj o =>
          dsimp only at hs
          split at hs
          · obtain ⟨e, -, hs⟩ := Res.bind_eq_ok.mp hs
            cases hs
          · rw [if_neg hne] at hs
            obtain ⟨e, -, hs⟩ := Res.bind_eq_ok.mp hs
            cases hs
        | arr l =>
          dsimp only at hs
          obtain ⟨i, -, hs⟩ := Res.bind_eq_ok.mp hs
          obtain ⟨e, -, hs⟩ := Res.bind_eq_ok.mp hs
          cases hs
        | _ => cases hs
    | err e => simp only [hs] at h; cases h
    | panic => simp only [hs] at h; cases h

theorem resolveAt_empty (qs : List Str) (v w : Value) : resolveAt ([] :: qs) v = .ok w ↔ (∃ o, v = .obj o) ∧ w = v := by
  have hn : ∀ i, parseUnsigned 10 usizeMax [] ≠ .ok i := by
    intro i h
    exact ((index_iff (by simp) i).mp h).1 rfl
  rw [resolveAt]
  unfold step
  cases v with
  | obj o =>
    dsimp only
    cases h : parseUnsigned 10 usizeMax [] with
    | ok i => exact absurd h (hn i)
    | err e =>
      simp only [if_true, Res.ok.injEq]
      exact ⟨fun h => ⟨⟨o, rfl⟩, h.symm⟩, fun h => h.2.symm⟩
    | panic =>
      simp only [if_true, Res.ok.injEq]
      exact ⟨fun h => ⟨⟨o, rfl⟩, h.symm⟩, fun h => h.2.symm⟩
  | arr l =>
    dsimp only
    cases h : parseUnsigned 10 usizeMax [] with
    | ok i => exact absurd h (hn i)
    | err e => simp
    | panic => simp
  | _ => simp

theorem split_empty : ∀ ps : List Str, (∀ p ∈ ps, p ≠ []) ∨ ∃ a b, ps = a ++ [] :: b ∧ ∀ p ∈ a, p ≠ []
  | [] => .inl (by simp)
  | s :: ps => by
    by_cases hs : s = []
    · exact .inr ⟨[], ps, by simp [hs], by simp⟩
    · rcases split_empty ps with h | ⟨a, b, h1, h2⟩
      · exact .inl (by intro p hp; rcases List.mem_cons.mp hp with rfl | hp; exacts [hs, h p hp])
      · exact .inr ⟨s :: a, b, by simp [h1], by intro p hp; rcases List.mem_cons.mp hp with rfl | hp; exacts [hs, h2 p hp]⟩

theorem resolveAt_resolves {ps : List Str} (hp : ∀ p ∈ ps, '+' ∉ p) (v w : Value) : resolveAt ps v = .ok w ↔ Resolves ps v w := by
  have key : ∀ a b : List Str, (∀ p ∈ a, '+' ∉ p) → (∀ p ∈ a, p ≠ []) →
      (resolveAt (a ++ [] :: b) v = .ok w ↔ ∃ o, w = .obj o ∧ Leads a v (.obj o)) := by
    intro a b hpl hne
    cases hr : resolveAt a v with
    | ok u =>
      rw [resolveAt_app hne hr, resolveAt_empty]
      have hl := (resolveAt_iff (fun p h => ⟨hne p h, hpl p h⟩) v u).mp hr
      constructor
      · rintro ⟨⟨o, rfl⟩, rfl⟩
        exact ⟨o, rfl, hl⟩
      · rintro ⟨o, rfl, h⟩
        have := (resolveAt_iff (fun p h => ⟨hne p h, hpl p h⟩) v _).mpr h
        rw [hr] at this
        cases this
        exact ⟨⟨o, rfl⟩, rfl⟩
    | _ =>
      have hno : ∀ a b : List Str, ∀ v, (∀ u, resolveAt a v ≠ .ok u) → ∀ u, resolveAt (a ++ b) v ≠ .ok u := by
        intro a b
        induction a with
        | nil => intro v h; exact absurd rfl (by rw [resolveAt] at h; exact h v)
        | cons s a ih =>
          intro v h u
          rw [resolveAt] at h
          rw [List.cons_append, resolveAt]
          cases hs : step v s with
          | ok x =>
            cases x with
            | some x => simp only [hs] at h ⊢; exact ih x h u
            | none => simp only [hs] at h; exact absurd rfl (h v)
          | err e => simp
          | panic => simp
      constructor
      · intro h
        exact absurd h (hno a _ v (by rw [hr]; simp) w)
      · rintro ⟨o, rfl, h⟩
        have := (resolveAt_iff (fun p h => ⟨hne p h, hpl p h⟩) v _).mpr h
        rw [hr] at this
        cases this
  constructor
  · intro h
    rcases split_empty ps with hne | ⟨a, b, rfl, hne⟩
    · exact .leads hne ((resolveAt_iff (fun p h => ⟨hne p h, hp p h⟩) v w).mp h)
    · obtain ⟨o, rfl, hl⟩ := (key a b (fun p h => hp p (by simp [h])) hne).mp h
      exact .stops hne hl
  · intro h
    cases h with
    | leads hne hl => exact (resolveAt_iff (fun p h => ⟨hne p h, hp p h⟩) v w).mpr hl
    | stops hne hl => exact (key _ _ (fun p h => hp p (by simp [h])) hne).mpr ⟨_, rfl, hl⟩

/-! `strip` -/

theorem lastIndex_front {p : Str} {a b : List Str} (hp : p ∉ b) : lastIndex p (a ++ p :: b) = some a.length := by
  unfold lastIndex
  have : (a ++ p :: b).zipIdx.reverse.find? (fun e => decide (e.1 = p)) = some (p, a.length) := by
    rw [List.zipIdx_append, List.zipIdx_cons, List.reverse_append, List.reverse_cons, List.append_assoc, List.find?_append]
    have h1 : (b.zipIdx (0 + a.length + 1)).reverse.find? (fun e => decide (e.1 = p)) = none := by
      rw [List.find?_eq_none]
      rintro ⟨x, i⟩ hx
      have := List.mem_zipIdx (List.mem_reverse.mp hx)
      have hxb : x ∈ b := by rw [this.2.2]; exact List.getElem_mem _
      simp only [decide_eq_true_eq]
      rintro rfl
      exact hp hxb
    rw [h1]
    simp
  rw [this]
  rfl

theorem stripLoop_front : ∀ (r orig tail : List Str), r.Nodup → (∀ p ∈ r, p ∉ tail) → ∀ mid, orig = r ++ mid ++ tail → (∀ p ∈ r, p ∉ mid) →
    stripLoop orig r.reverse (r ++ tail) = .ok tail := by
  intro r
  induction r using List.reverseRecOn with
  | nil => intro orig tail _ _ _ _ _; rfl
  | append_singleton r x ih =>
    intro orig tail hnd ht mid ho hm
    rw [List.reverse_append, List.reverse_singleton, List.singleton_append, stripLoop]
    have hx : lastIndex x orig = some r.length := by
      rw [ho, List.append_assoc, List.append_assoc]
      refine lastIndex_front (show x ∉ mid ++ tail from ?_)
      rw [List.mem_append]
      rintro (h | h)
      · exact hm x (by simp) h
      · exact ht x (by simp) h
    rw [hx, Res.orPanic, Res.ok_bind]
    have hrm : removeAt r.length (r ++ [x] ++ tail) = .ok (r ++ tail) := by
      unfold removeAt
      rw [if_pos (by simp), List.append_assoc, List.eraseIdx_append_of_length_le (by omega)]
      simp
    rw [hrm, Res.ok_bind]
    have hnd' := List.nodup_append.mp hnd
    refine ih orig tail hnd'.1 (fun p hp => ht p (by simp [hp])) (x :: mid) ?_ ?_
    · rw [ho]; simp
    · intro p hp hpm
      rcases List.mem_cons.mp hpm with rfl | hpm
      · exact hnd'.2.2 p hp p (by simp) rfl
      · exact hm p (by simp [hp]) hpm

end Keride.Pather
