/-
Splitting and joining text; signed integer parsing; the digits of core's `Nat.toDigits`.
-/
import Verif.Lemmas.Num
import Verif.Model.Counter
import Verif.Model.Value

namespace Keride

theorem digitChr_eq : ∀ d < 16, digitChr d = Nat.digitChar d := by decide

theorem toDigitsCore_eq {b : Nat} (h2 : 2 ≤ b) (hb : b ≤ 16) (f1 f2 n : Nat) (h1 : n < f1) (h3 : n < f2)
    (out : Str) : Nat.toDigitsCore b f1 n out = fmtAux b f2 n out := by
  induction f1 generalizing f2 n out with
  | zero => omega
  | succ f1 ih =>
    obtain ⟨f2, rfl⟩ : ∃ k, f2 = k + 1 := ⟨f2 - 1, by omega⟩
    have hm : n % b < 16 := lt_of_lt_of_le (Nat.mod_lt _ (by omega)) hb
    rw [Nat.toDigitsCore, fmtAux]
    by_cases h : n < b
    · rw [if_pos h]
      simp [Nat.div_eq_of_lt h, digitChr_eq n (by omega), Nat.mod_eq_of_lt h]
    · rw [if_neg h]
      have hd : n / b ≠ 0 := by
        intro e
        rcases Nat.div_eq_zero_iff.mp e with e | e <;> omega
      have hlt : n / b < n := Nat.div_lt_self (by omega) (by omega)
      simp only [hd, if_false]
      rw [ih f2 (n / b) (by omega) (by omega), digitChr_eq _ hm]

/-- The model's formatting is the decimal (or hexadecimal) text of core's `Nat.toDigits`. -/
theorem fmtNat_eq {b : Nat} (h2 : 2 ≤ b) (hb : b ≤ 16) (n : Nat) : fmtNat b n = Nat.toDigits b n :=
  (toDigitsCore_eq h2 hb (n + 1) (n + 1) n (by omega) (by omega) []).symm

theorem splitChar_ne_nil (d : Char) (s : Str) : splitChar d s ≠ [] := by
  cases s with
  | nil => simp [splitChar]
  | cons c s =>
    rw [splitChar]
    split
    · simp
    · split <;> simp

theorem splitChar_sep (d : Char) (t : Str) : ∀ s : Str,
    splitChar d (s ++ d :: t) = splitChar d s ++ splitChar d t
  | [] => by simp [splitChar]
  | c :: s => by
    have ih := splitChar_sep d t s
    rw [List.cons_append, splitChar]
    by_cases h : c = d
    · rw [if_pos h, ih, splitChar, if_pos h]; rfl
    · rw [if_neg h, ih, splitChar, if_neg h]
      obtain ⟨x, xs, hx⟩ := List.exists_cons_of_ne_nil (splitChar_ne_nil d s)
      rw [hx]; rfl

theorem splitChar_length (d : Char) : ∀ s : Str, (splitChar d s).length = s.count d + 1
  | [] => rfl
  | c :: s => by
    have ih := splitChar_length d s
    rw [splitChar, List.count_cons]
    by_cases h : c = d
    · rw [if_pos h, List.length_cons, ih]; simp [h]
    · rw [if_neg h]
      obtain ⟨x, xs, hx⟩ := List.exists_cons_of_ne_nil (splitChar_ne_nil d s)
      rw [hx] at ih
      rw [hx]
      simp only [List.length_cons] at ih ⊢
      simp [h, ih]

theorem splitChar_none (d : Char) : ∀ s : Str, d ∉ s → splitChar d s = [s]
  | [], _ => rfl
  | c :: s, h => by
    rw [List.mem_cons, not_or] at h
    rw [splitChar, if_neg (fun e => h.1 e.symm), splitChar_none d s h.2]

theorem splitChar_join (d : Char) : ∀ l : List Str, l ≠ [] → (∀ s ∈ l, d ∉ s) → splitChar d (joinWith d l) = l
  | [], h, _ => absurd rfl h
  | [s], _, h => by rw [joinWith]; exact splitChar_none d s (h s List.mem_cons_self)
  | s :: t :: l, _, h => by
    rw [joinWith, splitChar_sep, splitChar_none d s (h s List.mem_cons_self),
      splitChar_join d (t :: l) (by simp) (fun x hx => h x (List.mem_cons_of_mem _ hx))]
    · rfl
    · simp

theorem joinWith_split (d : Char) : ∀ s : Str, joinWith d (splitChar d s) = s
  | [] => rfl
  | c :: s => by
    have ih := joinWith_split d s
    obtain ⟨x, xs, hx⟩ := List.exists_cons_of_ne_nil (splitChar_ne_nil d s)
    rw [splitChar]
    by_cases h : c = d
    · rw [if_pos h]
      rw [hx] at ih ⊢
      rw [joinWith, ih, h]
      · rfl
      · simp
    · rw [if_neg h]
      rw [hx] at ih ⊢
      cases xs with
      | nil => rw [joinWith] at ih ⊢; rw [ih]
      | cons y ys =>
        rw [joinWith] at ih ⊢
        · rw [List.cons_append, ih]
        · simp
        · simp

theorem not_mem_split (d : Char) : ∀ s : Str, ∀ p ∈ splitChar d s, d ∉ p
  | [], p, hp => by
    rw [splitChar, List.mem_singleton] at hp
    simp [hp]
  | c :: s, p, hp => by
    have ih := not_mem_split d s
    obtain ⟨x, xs, hx⟩ := List.exists_cons_of_ne_nil (splitChar_ne_nil d s)
    rw [hx] at ih
    rw [splitChar] at hp
    by_cases h : c = d
    · rw [if_pos h, hx, List.mem_cons] at hp
      rcases hp with rfl | hp
      · simp
      · exact ih p hp
    · rw [if_neg h, hx] at hp
      rcases List.mem_cons.mp hp with rfl | hp
      · rw [List.mem_cons, not_or]
        exact ⟨fun e => h e.symm, ih x List.mem_cons_self⟩
      · exact ih p (List.mem_cons_of_mem _ hp)

theorem mem_joinWith {d c : Char} : ∀ {l : List Str}, c ∈ joinWith d l → c = d ∨ ∃ s ∈ l, c ∈ s
  | [], h => by simp [joinWith] at h
  | [s], h => .inr ⟨s, List.mem_cons_self, h⟩
  | s :: t :: l, h => by
    rw [joinWith] at h
    · rcases List.mem_append.mp h with h | h
      · exact .inr ⟨s, List.mem_cons_self, h⟩
      · rcases List.mem_cons.mp h with h | h
        · exact .inl h
        · rcases mem_joinWith h with h | ⟨x, hx, hc⟩
          · exact .inl h
          · exact .inr ⟨x, List.mem_cons_of_mem _ hx, hc⟩
    · simp

theorem isDigits_head {b : Nat} (hb : b ≤ 16) {s : Str} (hs : IsDigits b s) :
    s.head? ≠ some '+' ∧ s.head? ≠ some '-' := by
  cases s with
  | nil => simp
  | cons c t =>
    obtain ⟨d, hd, rfl⟩ := hs c List.mem_cons_self
    have := digitChr_ne d (by omega)
    simp [this.1, this.2.1]

theorem parseSigned_fmt {b n : Nat} {lo hi : Int} (h2 : 2 ≤ b) (hb : b ≤ 16) :
    parseSigned b lo hi (fmtNat b n) = if lo ≤ (n : Int) ∧ (n : Int) ≤ hi then some (n : Int) else none := by
  obtain ⟨h1, h3, h4, -⟩ := fmtNat_spec h2 hb n
  obtain ⟨hp, hm⟩ := isDigits_head hb h3
  unfold parseSigned
  simp only [hp, hm, or_self, if_false, h1, h4, Option.bind_some, decide_false, Bool.false_eq_true]

theorem parseSigned_neg {b n : Nat} {lo hi : Int} (h2 : 2 ≤ b) (hb : b ≤ 16) :
    parseSigned b lo hi ('-' :: fmtNat b n) = if lo ≤ -(n : Int) ∧ -(n : Int) ≤ hi then some (-(n : Int)) else none := by
  obtain ⟨h1, h3, h4, -⟩ := fmtNat_spec h2 hb n
  unfold parseSigned
  simp [h1, h4]

theorem parseSigned_range {b : Nat} {lo hi v : Int} {s : Str} (h : parseSigned b lo hi s = some v) :
    lo ≤ v ∧ v ≤ hi := by
  unfold parseSigned at h
  dsimp only at h
  generalize (if s.head? = some '+' ∨ s.head? = some '-' then s.tail else s) = ds at h
  by_cases hd : ds = []
  · rw [if_pos hd] at h; cases h
  · rw [if_neg hd, Option.bind_eq_some_iff] at h
    obtain ⟨n, -, h⟩ := h
    generalize (if decide (s.head? = some '-') = true then -(n : Int) else (n : Int)) = v' at h
    by_cases hr : lo ≤ v' ∧ v' ≤ hi
    · rw [if_pos hr] at h
      rw [← Option.some.inj h]; exact hr
    · rw [if_neg hr] at h; cases h

namespace Res

theorem mapList_ok {α : Type u} {β : Type v} {f : α → Res β} : ∀ {l : List α} {r : List β},
    Res.mapList f l = .ok r ↔ List.Forall₂ (fun a b => f a = .ok b) l r
  | [], r => by
    rw [mapList]
    constructor
    · intro h; cases h; exact .nil
    · intro h; cases h; rfl
  | a :: l, r => by
    rw [mapList]
    constructor
    · intro h
      cases hf : f a with
      | ok b =>
        rw [hf] at h
        cases hl : mapList f l with
        | ok bs =>
          rw [hl] at h
          cases h
          exact .cons hf (mapList_ok.mp hl)
        | err e => rw [hl] at h; cases h
        | panic => rw [hl] at h; cases h
      | err e => rw [hf] at h; cases h
      | panic => rw [hf] at h; cases h
    · intro h
      cases h with
      | cons h1 h2 => rw [h1, mapList_ok.mpr h2]

theorem mapList_panic {α : Type u} {β : Type v} {f : α → Res β} : ∀ {l : List α},
    Res.mapList f l = .panic → ∃ a ∈ l, f a = .panic
  | [], h => by cases h
  | a :: l, h => by
    rw [mapList] at h
    cases hf : f a with
    | ok b =>
      rw [hf] at h
      cases hl : mapList f l with
      | ok bs => rw [hl] at h; cases h
      | err e => rw [hl] at h; cases h
      | panic =>
        obtain ⟨x, hx, hp⟩ := mapList_panic hl
        exact ⟨x, List.mem_cons_of_mem _ hx, hp⟩
    | err e => rw [hf] at h; cases h
    | panic => exact ⟨a, List.mem_cons_self, hf⟩

end Res

end Keride
