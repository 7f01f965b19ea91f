import Verif.Model.Matter
import Verif.Lemmas.Base64

namespace Keride.Matter

theorem lookup_mem {α β : Type} [BEq α] [LawfulBEq α] {l : List (α × β)} {a : α} {b : β}
    (h : l.lookup a = some b) : (a, b) ∈ l := by
  induction l with
  | nil => simp at h
  | cons x l ih =>
    obtain ⟨k, v⟩ := x
    rw [List.lookup_cons] at h
    split at h
    · rename_i hk
      simp only [beq_iff_eq] at hk
      subst hk
      simp only [Option.some.injEq] at h
      subst h
      exact List.mem_cons_self
    · exact List.mem_cons_of_mem _ (ih h)

theorem sizage_mem {c : Str} {z : Sizage} (h : sizage c = .ok z) : (c, z) ∈ sizageTable :=
  lookup_mem (Res.ofOption_eq_ok.mp h)

theorem sizage_ne_panic (c : Str) : sizage c ≠ .panic := Res.ofOption_ne_panic

/-- Everything the proofs use about a row of the code table, whatever its size class. -/
structure RowOk (c : Str) (z : Sizage) : Prop where
  code_b64 : IsB64 c
  code_len : c.length = z.hs
  hs_cases : z.hs = 1 ∨ z.hs = 2 ∨ z.hs = 4
  ls_le : z.ls ≤ 2
  ls_cs : z.ls ≠ 0 → (z.hs + z.ss) % 4 = 0
  hard : ∃ f t, c = f :: t ∧ hardage f = .ok z.hs
  bard : ∃ f t, c = b64Chr f :: t ∧ f < 64 ∧ bardage f = .ok z.hs

/-- Rows with a fixed full size. -/
structure FixedOk (z : Sizage) : Prop where
  fs_ne : z.fs ≠ u32Max
  ss_zero : z.ss = 0
  fs_mod : z.fs % 4 = 0
  fs_pos : 4 ≤ z.fs
  fs_gt : z.hs ≤ z.fs
  fs_le : z.fs ≤ 124
  bits : 8 * (z.ls + ((z.fs - z.hs) * 3 / 4 - z.ls)) + 2 * (z.hs % 4) = 6 * (z.fs - z.hs)
  raw_pos : 1 ≤ (z.fs - z.hs) * 3 / 4 - z.ls
  pad : (3 - ((z.fs - z.hs) * 3 / 4 - z.ls) % 3) % 3 = z.hs % 4 + z.ls
  fs_hs : z.hs = 2 → 8 ≤ z.fs

/-- Rows with a variable size. -/
structure VarOk (c : Str) (z : Sizage) : Prop where
  fs_eq : z.fs = u32Max
  shape : (z.hs = 2 ∧ z.ss = 2 ∧ c = [smallVrzDex.getD z.ls '4', c.getD 1 'A']) ∨
    (z.hs = 4 ∧ z.ss = 4 ∧ c = [largeVrzDex.getD z.ls '7', 'A', 'A', c.getD 3 'A'])

/-- Boolean check of one row, evaluated over the whole table below. -/
def rowCheck (e : Str × Sizage) : Bool :=
  let c := e.1
  let z := e.2
  decide (IsB64 c) && decide (c.length = z.hs) && decide (z.hs = 1 ∨ z.hs = 2 ∨ z.hs = 4)
    && decide (z.ls ≤ 2) && decide (z.ls ≠ 0 → (z.hs + z.ss) % 4 = 0)
    && decide (sizage c = .ok z)
    && (match c with
      | [] => false
      | f :: _ => decide (hardage f = .ok z.hs) &&
        (match b64Alphabet.idxOf? f with
          | none => false
          | some i => decide (bardage i = .ok z.hs)))
    && (decide (z.fs ≠ u32Max ∧ z.ss = 0 ∧ z.fs % 4 = 0 ∧ 4 ≤ z.fs ∧ z.hs ≤ z.fs ∧ z.fs ≤ 124 ∧
        8 * (z.ls + ((z.fs - z.hs) * 3 / 4 - z.ls)) + 2 * (z.hs % 4) = 6 * (z.fs - z.hs) ∧
        1 ≤ (z.fs - z.hs) * 3 / 4 - z.ls ∧
        (3 - ((z.fs - z.hs) * 3 / 4 - z.ls) % 3) % 3 = z.hs % 4 + z.ls ∧ (z.hs = 2 → 8 ≤ z.fs)) ||
      decide (z.fs = u32Max ∧
        ((z.hs = 2 ∧ z.ss = 2 ∧ c = [smallVrzDex.getD z.ls '4', c.getD 1 'A']) ∨
         (z.hs = 4 ∧ z.ss = 4 ∧ c = [largeVrzDex.getD z.ls '7', 'A', 'A', c.getD 3 'A']))))

theorem table_check : sizageTable.all rowCheck = true := by decide +kernel

theorem row_ok {c : Str} {z : Sizage} (h : (c, z) ∈ sizageTable) :
    RowOk c z ∧ (FixedOk z ∨ VarOk c z) ∧ sizage c = .ok z := by
  have hc := List.all_eq_true.mp table_check _ h
  simp only [rowCheck, Bool.and_eq_true, Bool.or_eq_true, decide_eq_true_eq] at hc
  obtain ⟨⟨⟨⟨⟨⟨⟨h1, h2⟩, h3⟩, h4⟩, h5⟩, h6⟩, h7⟩, h8⟩ := hc
  refine ⟨?_, ?_, h6⟩
  · cases c with
    | nil => simp at h7
    | cons f t =>
      simp only [Bool.and_eq_true, decide_eq_true_eq] at h7
      obtain ⟨h7, h9⟩ := h7
      cases hi : b64Alphabet.idxOf? f with
      | none => rw [hi] at h9; simp at h9
      | some i =>
        rw [hi] at h9
        simp only [decide_eq_true_eq] at h9
        obtain ⟨hi1, rfl⟩ := idxOf?_some hi
        exact ⟨h1, h2, h3, h4, h5, ⟨_, _, rfl, h7⟩, ⟨i, t, rfl, hi1, h9⟩⟩
  · rcases h8 with ⟨a, b, c, d, e, f, g, i, j, k⟩ | ⟨a, b⟩
    · exact .inl ⟨a, b, c, d, e, f, g, i, j, k⟩
    · exact .inr ⟨a, b⟩

theorem sizage_row {c : Str} {z : Sizage} (h : sizage c = .ok z) :
    RowOk c z ∧ (FixedOk z ∨ VarOk c z) :=
  ⟨(row_ok (sizage_mem h)).1, (row_ok (sizage_mem h)).2.1⟩

theorem VarOk.hs_cases {c : Str} {z : Sizage} (h : VarOk c z) :
    (z.hs = 2 ∧ z.ss = 2) ∨ (z.hs = 4 ∧ z.ss = 4) := by
  rcases h.shape with ⟨a, b, -⟩ | ⟨a, b, -⟩
  · exact .inl ⟨a, b⟩
  · exact .inr ⟨a, b⟩

/-- The subtractions in `raw_size` never go below zero. -/
theorem rawSize_no_underflow {c : Str} {z : Sizage} (h : sizage c = .ok z) (hf : z.fs ≠ u32Max) :
    z.hs + z.ss ≤ z.fs ∧ z.ls ≤ (z.fs - (z.hs + z.ss)) * 3 / 4 := by
  obtain ⟨-, hr | hr⟩ := sizage_row h
  · have h1 := hr.ss_zero; have h2 := hr.fs_gt; have h3 := hr.raw_pos
    rw [h1]; simp only [Nat.add_zero]; omega
  · exact absurd hr.fs_eq hf

theorem hardage_cases {f : Char} {hs : Nat} (h : hardage f = .ok hs) : hs = 1 ∨ hs = 2 ∨ hs = 4 := by
  unfold hardage at h
  repeat' split at h
  all_goals simp at h
  all_goals omega

theorem bardage_cases {f : Nat} {hs : Nat} (h : bardage f = .ok hs) : hs = 1 ∨ hs = 2 ∨ hs = 4 := by
  unfold bardage at h
  repeat' split at h
  all_goals simp at h
  all_goals omega

theorem hardage_ne_panic (f : Char) : hardage f ≠ .panic := by
  unfold hardage; repeat' split
  all_goals simp

theorem bardage_ne_panic (f : Nat) : bardage f ≠ .panic := by
  unfold bardage; repeat' split
  all_goals simp

end Keride.Matter
