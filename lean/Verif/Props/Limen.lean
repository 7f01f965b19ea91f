/-
C33 for `Tholder::new_with_limen` (tholder.rs:125-127).
-/
import Verif.Props.Tholder
import Verif.Props.Matter
import Verif.Lemmas.Typed

namespace Keride.Props

open Spec Matter Tholder

theorem split_infix (d : Char) (s p : Str) (h : p ∈ splitChar d s) : p <:+: s := by
  rw [← joinWith_split d s]
  generalize splitChar d s = l at h
  induction l with
  | nil => cases h
  | cons a l ih =>
    cases l with
    | nil =>
      rw [List.mem_singleton.mp h]
      exact List.infix_refl _
    | cons b l =>
      rw [joinWith]
      · rcases List.mem_cons.mp h with rfl | h
        · exact (List.prefix_append _ _).isInfix
        · exact (ih h).trans ⟨a ++ [d], [], by simp⟩
      · simp

theorem zeroText_map {x u : Str} (h : ZeroText x) (e : replaceChar 's' '/' u = x) : u = x := by
  have hf : ∀ c : Char, ∀ y ∈ ['0', '+', '-'], (if c = 's' then '/' else c) = y → c = y := by
    intro c y hy h
    split at h
    · subst h; simp at hy
    · exact h
  have hx : ∀ c ∈ x, c ∈ ['0', '+', '-'] := by
    obtain ⟨k, rfl | rfl | rfl⟩ := h <;> intro c hc <;> simp [List.mem_replicate] at hc ⊢
    · exact .inl hc
    · rcases hc with hc | hc <;> simp [hc]
    · rcases hc with hc | hc <;> simp [hc]
  subst e
  clear h
  induction u with
  | nil => rfl
  | cons c u ih =>
    rw [replaceChar, List.map_cons] at hx ⊢
    rw [← hf c _ (hx _ (List.mem_cons_self ..)) rfl]
    exact congrArg _ (ih fun c hc => hx c (List.mem_cons_of_mem _ hc))

theorem bext_text {m : M} {z : Sizage} (h : Wf m z) (hc : m.code ∈ Bexter.codex) : ∃ t, Bexter.bext m = .ok t ∧ '/' ∉ t := by
  have hv : z.fs = u32Max ∧ z.ls ≤ 2 := by
    have : ∀ c ∈ Bexter.codex, ∀ z, sizage c = .ok z → z.fs = u32Max ∧ z.ls ≤ 2 := by
      intro c hc z hz
      simp only [Bexter.codex, List.mem_cons, List.not_mem_nil, or_false] at hc
      rcases hc with rfl | rfl | rfl | rfl | rfl | rfl <;> cases hz <;> exact ⟨rfl, by decide⟩
    exact this _ hc _ h.row
  obtain ⟨h1, -⟩ := h.var hv.1
  have he := b64Encode_eq m.size (List.replicate z.ls 0 ++ m.raw) (by simp; omega)
  have hb : IsB64 (b64Encode (List.replicate z.ls 0 ++ m.raw)) := by
    rw [he]
    exact isB64_text (Sextets.toBase _ _)
  have hlen : (b64Encode (List.replicate z.ls 0 ++ m.raw)).length = 4 * m.size := by rw [he]; simp
  unfold Bexter.bext
  rw [h.row, Res.ok_bind]
  dsimp only
  generalize hg : b64Encode (List.replicate z.ls 0 ++ m.raw) = b at hb hlen ⊢
  have hws : (if z.ls = 0 then (if b.head? = some 'A' then 1 else 0) else (z.ls + 1) % 4) ≤ b.length := by
    split
    · split
      · cases b with
        | nil => rename_i h; cases h
        | cons => simp
      · omega
    · omega
  rw [sliceFrom_ascii hb.ascii hws]
  refine ⟨_, rfl, fun hm => ?_⟩
  have := hb _ (List.mem_of_mem_drop hm)
  revert this
  decide

/-- C33, `new_with_limen`, partial: in a release build it panics only when the bytes are the UTF-8 of a text that ends within the code announced by its first character, or has a character of several
bytes across the end of that code, or that `Matter` panics on (`C11_text_partial`), or in which `=` occurs, or that holds a weight with zero numerator and denominator. The first two always panic.
Missing: these texts, see `C33_false`. -/
theorem C33_limen_partial (b : Bytes) :
    (newWithLimen false b = .panic → ∃ s, fromUtf8 b = .ok s ∧
      ((∃ c rest n, s = c :: rest ∧ codeChars c = some n ∧ (Str.len s < n ∨ Splits s n)) ∨ Matter.newWithQb64 s = .panic ∨ '=' ∈ s ∨
        ∃ m t x y, Matter.newWithQb64 s = .ok m ∧ Bexter.bext m = .ok t ∧ ZeroText x ∧ ZeroText y ∧ x ++ 's' :: y <:+: t)) ∧
    (∀ chk c rest n, fromUtf8 b = .ok (c :: rest) → codeChars c = some n → Str.len (c :: rest) < n ∨ Splits (c :: rest) n → newWithLimen chk b = .panic) := by
  constructor
  · intro h
    have hp : processLimen false Tholder.default b = .panic := by
      unfold newWithLimen Tholder.new at h
      simp only [Res.ok_bind] at h
      rw [Res.bind_eq_panic] at h
      rcases h with h | ⟨x, -, h⟩
      · exact h
      · split at h <;> cases h
    cases hu : fromUtf8 b with
    | panic => exact absurd hu (fromUtf8_ne_panic b)
    | err e =>
      unfold processLimen at hp
      split at hp
      · cases hp
      · rw [hu] at hp; cases hp
    | ok s =>
      refine ⟨s, rfl, ?_⟩
      have hb : b = toUtf8 s := fromUtf8_ok hu
      by_cases hE : '=' ∈ s
      · exact .inr (.inr (.inl hE))
      cases hq : Matter.newWithQb64 s with
      | panic => exact .inr (.inl rfl)
      | ok m =>
        rw [hb, processLimen_text hq] at hp
        obtain ⟨z, -, hw, -⟩ := exfil_wf hq hE
        refine .inr (.inr (.inr ?_))
        split at hp
        · rw [Res.bind_eq_panic] at hp
          rcases hp with hp | ⟨n, -, hp⟩
          · exact absurd hp (Number.num_wf hw)
          · split at hp
            · cases hp
            · exact absurd hp (processUnweighted_ne_panic n)
        · split at hp
          · rename_i hc
            obtain ⟨t, ht, hs⟩ := bext_text hw (by simpa using hc)
            rw [ht, Res.ok_bind] at hp
            by_cases hz : NoZeroOver (.arr ((splitChar 'a' (replaceChar 's' '/' t)).map fun clause => Value.arr ((splitChar 'c' clause).map Value.str)))
            · exact absurd hp (processWeighted_release hz)
            · unfold NoZeroOver at hz
              push Not at hz
              obtain ⟨cs, ws, w, e, h1, h2, x, y, rfl, hx, hy⟩ := hz
              cases e
              obtain ⟨cl, h3, e⟩ := List.mem_map.mp h1
              cases e
              obtain ⟨w, h4, e⟩ := List.mem_map.mp h2
              cases e
              obtain ⟨u, v, h5⟩ := (split_infix _ _ _ h4).trans (split_infix _ _ _ h3)
              refine ⟨m, t, x, y, rfl, ht, hx, hy, ?_⟩
              rw [replaceChar, eq_comm, List.map_eq_append_iff] at h5
              obtain ⟨t1, v', rfl, h5, -⟩ := h5
              rw [List.map_eq_append_iff] at h5
              obtain ⟨u', w', rfl, -, h5⟩ := h5
              rw [List.map_eq_append_iff] at h5
              obtain ⟨x', s', rfl, hx', h5⟩ := h5
              rw [List.map_eq_cons_iff] at h5
              obtain ⟨c, y', rfl, hc', hy'⟩ := h5
              rw [zeroText_map hx hx', zeroText_map hy hy'] at hs ⊢
              have : c = 's' := by
                split at hc'
                · assumption
                · subst hc'; simp at hs
              subst this
              exact ⟨u', v', by simp⟩
          · cases hp
      | err e =>
        left
        subst hb
        unfold processLimen at hp
        split at hp
        · cases hp
        · rw [hu, Res.ok_bind] at hp
          cases s with
          | nil => rename_i hne; exact absurd rfl hne
          | cons c rest =>
            simp only [List.head?_cons, Res.orPanic, Res.ok_bind] at hp
            rw [Res.bind_eq_panic] at hp
            rcases hp with hp | ⟨n, hn, hp⟩
            · exact absurd hp (hardage_ne_panic c)
            · refine ⟨c, rest, n, rfl, codeChars_iff.mpr hn, ?_⟩
              by_cases hl : n ≤ Str.len (c :: rest)
              · rcases Str.sliceTo_cases hl with ⟨a, b, -, -, h1⟩ | ⟨h1, -⟩
                · exfalso
                  rw [h1, Res.ok_bind] at hp
                  have e1 : Number.new none none none none none (some (c :: rest)) none = .err e := by
                    have : Number.new none none none none none (some (c :: rest)) none = Matter.newWithQb64 (c :: rest) := rfl
                    rw [this, hq]
                  have e2 : Bexter.new none none none none (some (c :: rest)) none = .err e := by
                    have : Bexter.new none none none none (some (c :: rest)) none =
                      Matter.newWithQb64 (c :: rest) >>= fun m => Bexter.validateCode m.code >>= fun _ => .ok m := rfl
                    rw [this, hq]; rfl
                  rw [e1, e2] at hp
                  split at hp
                  · cases hp
                  · split at hp <;> cases hp
                · exact .inr h1
              · exact .inl (by omega)
  · intro chk c rest n hu hc hn
    have hs : Str.sliceTo (c :: rest) n = .panic := by
      rcases hn with hn | hn
      · cases h : Str.sliceTo (c :: rest) n with
        | panic => rfl
        | err e => exact absurd h sliceTo_ne_err
        | ok a =>
          obtain ⟨t, h1, h2⟩ := sliceTo_ok h
          rw [h1, Str.len_append] at hn
          omega
      · exact Str.splits_panic hn
    unfold newWithLimen Tholder.new processLimen
    have hb : b ≠ [] := by
      rintro rfl
      cases hu
    simp only [Res.ok_bind]
    rw [if_neg hb, hu, Res.ok_bind]
    simp only [List.head?_cons, Res.orPanic, Res.ok_bind]
    rw [codeChars_iff.mp hc, Res.ok_bind, hs]
    rfl

/-- All cases occur: a text of one character; one that `Matter` panics on; one padded with `=`; the weight 0/0; and a limen that is none of these. -/
example : newWithLimen false (toUtf8 (str% "0")) = .panic ∧ newWithLimen false (toUtf8 (str% "5AAA")) = .panic ∧ newWithLimen false (toUtf8 (str% "MA==")) = .panic ∧
    newWithLimen false (toUtf8 (str% "4AABA0s0")) = .panic ∧ (newWithLimen false (toUtf8 (str% "MAAC"))).isOk = true :=
  ⟨by rfl, by rfl, by rfl, by rfl, by decide +kernel⟩

theorem sith_panic {json : Str → Res Value} {v : Value} (h : newWithSith false json v = .panic) : processSith false json v = .panic := by
  unfold newWithSith Tholder.new at h
  simp only [Res.ok_bind] at h
  rw [Res.bind_eq_panic] at h
  rcases h with h | ⟨x, -, h⟩
  · exact h
  · split at h <;> cases h

theorem sith_int (json : Str → Res Value) (i : Int) : newWithSith false json (.int i) ≠ .panic := fun h => processUnweighted_ne_panic i (sith_panic h)

theorem thold_int (i : Int) : newWithThold false (.int i) ≠ .panic := sith_int (fun _ => .err .json) i

/-- C33, the other two constructors, for any value, partial: in a release build `new_with_thold` panics only on a value that holds a weight with zero numerator and denominator, and `new_with_sith` only
on such a list, on the text of one, or when the JSON parser panics. Missing: such weights, see `C33_false`. -/
theorem C33_values_partial (json : Str → Res Value) (v : Value) :
    (newWithThold false v = .panic → ∃ cs, v = .arr cs ∧ ¬ NoZeroOver (.arr cs)) ∧
    (newWithSith false json v = .panic →
      (∃ cs, (v = .arr cs ∨ ∃ s, v = .str s ∧ json s = .ok (.arr cs)) ∧ (¬ NoZeroOver (.arr cs) ∨ ¬ NoZeroOver (.arr [.arr cs]))) ∨ ∃ s, v = .str s ∧ json s = .panic) := by
  constructor
  · intro h
    cases v with
    | arr cs => exact ⟨cs, rfl, fun hz => (C33_construct_partial json cs).1 hz h⟩
    | int i => exact absurd h (thold_int i)
    | _ => cases h
  · intro h
    have hlist : ∀ cs, newWithSith false json (.arr cs) = .panic → ¬ NoZeroOver (.arr cs) ∨ ¬ NoZeroOver (.arr [.arr cs]) := by
      intro cs h
      by_cases h1 : NoZeroOver (.arr cs)
      · exact .inr fun h2 => (C33_construct_partial json cs).2.1 h1 h2 h
      · exact .inl h1
    cases v with
    | arr cs => exact .inl ⟨cs, .inl rfl, hlist cs h⟩
    | int i => exact absurd h (sith_int json i)
    | str s =>
      have hp : processSith false json (.str s) = .panic := sith_panic h
      have he : processSith false json (.str s) = if s.head? = some '[' then json s >>= processList false else
          Res.ofOption .parseInt (parseSigned 16 (-2 ^ 63) i64Max s) >>= processUnweighted := rfl
      rw [he] at hp
      split at hp
      · rw [Res.bind_eq_panic] at hp
        rcases hp with hp | ⟨w, h1, hp⟩
        · exact .inr ⟨s, rfl, hp⟩
        · left
          cases w with
          | arr cs =>
            refine ⟨cs, .inr ⟨s, rfl, h1⟩, hlist cs ?_⟩
            have : newWithSith false json (.arr cs) = (processList false (.arr cs) >>= fun t => if t.isDefault then .err .emptyMaterial else .ok t) := rfl
            rw [this, hp]
            rfl
          | _ => cases hp
      · rw [Res.bind_eq_panic] at hp
        rcases hp with hp | ⟨w, h1, hp⟩
        · unfold Res.ofOption at hp
          split at hp <;> cases hp
        · exact absurd hp (processUnweighted_ne_panic w)
    | _ => cases h

example : newWithThold false (.arr [.arr [.str (str% "0/0")]]) = .panic ∧ ¬ NoZeroOver (.arr [.arr [.str (str% "0/0")]]) ∧
    newWithSith false (fun _ => .ok (.arr [.str (str% "-0/0")])) (.str (str% "[")) = .panic :=
  ⟨rfl, fun h => h _ _ _ rfl (.head _) (.head _) ⟨str% "0", str% "0", rfl, ⟨0, .inl rfl⟩, ⟨0, .inl rfl⟩⟩, rfl⟩

end Keride.Props
