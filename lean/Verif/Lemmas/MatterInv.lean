import Verif.Lemmas.MatterParse

namespace Keride.Matter

theorem fixed_head : ∀ e ∈ sizageTable, e.2.fs ≠ u32Max →
    ∀ f t, e.1 = f :: t → f ∉ smallVrzDex ∧ f ∉ largeVrzDex := by
  have h : sizageTable.all (fun e => decide (e.2.fs = u32Max) ||
      (match e.1 with
        | [] => true
        | f :: _ => decide (f ∉ smallVrzDex ∧ f ∉ largeVrzDex))) = true := by decide +kernel
  intro e he hf f t heq
  have := List.all_eq_true.mp h e he
  simp only [heq, Bool.or_eq_true, decide_eq_true_eq] at this
  exact this.resolve_left hf

theorem small_large_disjoint' : ∀ i < 3, ∀ j < 3,
    (smallVrzDex.getD i '4' = smallVrzDex.getD j '4' → i = j) ∧
    (largeVrzDex.getD i '7' = largeVrzDex.getD j '7' → i = j) ∧
    smallVrzDex.getD i '4' ≠ largeVrzDex.getD j '7' ∧
    smallVrzDex.getD i '4' ∈ smallVrzDex ∧ largeVrzDex.getD i '7' ∈ largeVrzDex := by
  intro i hi j hj
  interval_cases i <;> interval_cases j <;> decide

theorem small_large_disjoint (i : Nat) (hi : i ≤ 2) (j : Nat) (hj : j ≤ 2) :
    (smallVrzDex.getD i '4' = smallVrzDex.getD j '4' → i = j) ∧
    (largeVrzDex.getD i '7' = largeVrzDex.getD j '7' → i = j) ∧
    smallVrzDex.getD i '4' ≠ largeVrzDex.getD j '7' ∧
    smallVrzDex.getD i '4' ∈ smallVrzDex ∧ largeVrzDex.getD i '7' ∈ largeVrzDex :=
  small_large_disjoint' i (by omega) j (by omega)

theorem slice_len {s r : Str} {i j : Nat} (h : Str.slice s i j = .ok r) : Str.len r = j - i := by
  rw [Str.slice] at h
  split at h
  · simp at h
  · rw [Res.bind_eq_ok] at h
    obtain ⟨t, ht, h⟩ := h
    obtain ⟨u, rfl, hu⟩ := sliceTo_ok ht
    obtain ⟨v, rfl, hv⟩ := sliceFrom_ok h
    rw [Str.len_append] at hu
    omega

/-- What the raw-material constructor returns, for any code. -/
theorem new_cases {code : Str} {raw : Bytes} {m : M} (h : newWithCodeAndRaw code raw = .ok m) :
    (∃ f t, code = f :: t ∧ f ∉ smallVrzDex ∧ f ∉ largeVrzDex ∧
      ∃ n, rawSize code = .ok n ∧ n ≤ raw.length ∧ m = ⟨code, 0, raw.take n⟩) ∨
    (∃ f t ls x, code = f :: t ∧ (f ∈ smallVrzDex ∨ f ∈ largeVrzDex) ∧
      ls ≤ 2 ∧ m.raw = raw.take (raw.length % 2 ^ 32) ∧ m.raw.length = raw.length % 2 ^ 32 ∧
      m.raw.length + ls = 3 * m.size ∧
      ((f ∈ smallVrzDex ∧ Str.slice code 1 2 = .ok x ∧ m.size < 64 ^ 2 ∧
          m.code = smallVrzDex.getD ls '4' :: x) ∨
       (f ∈ smallVrzDex ∧ Str.slice code 1 2 = .ok x ∧ 64 ^ 2 ≤ m.size ∧ m.size < 64 ^ 4 ∧
          m.code = largeVrzDex.getD ls '7' :: 'A' :: 'A' :: x) ∨
       (f ∉ smallVrzDex ∧ Str.slice code 1 4 = .ok x ∧ m.size < 64 ^ 4 ∧
          m.code = largeVrzDex.getD ls '7' :: x))) := by
  unfold newWithCodeAndRaw at h
  split at h
  · simp at h
  · rename_i f t
    split at h
    · rename_i hf
      right
      simp only [Res.bind_eq_ok] at h
      obtain ⟨c', hc', h⟩ := h
      have hlt : ¬ (raw.length < raw.length % 2 ^ 32) := by
        have := Nat.mod_le raw.length (2 ^ 32); omega
      rw [if_neg hlt] at h
      simp only [Res.ok.injEq] at h
      subst h
      have hls : ∀ r, (3 - r % 3) % 3 ≤ 2 := by intro r; omega
      have hrl : (raw.take (raw.length % 2 ^ 32)).length = raw.length % 2 ^ 32 := by
        rw [List.length_take]; exact Nat.min_eq_left (Nat.mod_le _ _)
      have hsum : ∀ r, r + (3 - r % 3) % 3 = 3 * ((r + (3 - r % 3) % 3) / 3) := by intro r; omega
      split at hc'
      · rename_i hsm
        split at hc'
        · rename_i hlt
          rw [Res.bind_eq_ok] at hc'
          obtain ⟨x, hx, hc'⟩ := hc'
          simp only [Res.pure_eq, Res.ok.injEq] at hc'
          exact ⟨f, t, _, x, rfl, hf, hls _, rfl, hrl, by rw [hrl]; exact hsum _,
            .inl ⟨hsm, hx, hlt, hc'.symm⟩⟩
        · rename_i hlt
          split at hc'
          · rename_i hlt2
            rw [Res.bind_eq_ok] at hc'
            obtain ⟨x, hx, hc'⟩ := hc'
            simp only [Res.pure_eq, Res.ok.injEq] at hc'
            exact ⟨f, t, _, x, rfl, hf, hls _, rfl, hrl, by rw [hrl]; exact hsum _,
              .inr (.inl ⟨hsm, hx, Nat.le_of_not_lt hlt, hlt2, hc'.symm⟩)⟩
          · simp at hc'
      · rename_i hsm
        split at hc'
        · rename_i hlt
          rw [Res.bind_eq_ok] at hc'
          obtain ⟨x, hx, hc'⟩ := hc'
          simp only [Res.pure_eq, Res.ok.injEq] at hc'
          exact ⟨f, t, _, x, rfl, hf, hls _, rfl, hrl, by rw [hrl]; exact hsum _,
            .inr (.inr ⟨hsm, hx, hlt, hc'.symm⟩)⟩
        · simp at hc'
    · rename_i hf
      left
      rw [Res.bind_eq_ok] at h
      obtain ⟨n, hn, h⟩ := h
      split at h
      · simp at h
      · rename_i hlt
        simp only [Res.ok.injEq] at h
        exact ⟨f, t, rfl, fun h => hf (.inl h), fun h => hf (.inr h), n, hn, Nat.le_of_not_lt hlt, h.symm⟩

theorem rawSize_ok {c : Str} {n : Nat} (h : rawSize c = .ok n) :
    ∃ z, sizage c = .ok z ∧ z.fs ≠ u32Max ∧ FixedOk z ∧ n = (z.fs - z.hs) * 3 / 4 - z.ls := by
  rw [rawSize, Res.bind_eq_ok] at h
  obtain ⟨z, hz, h⟩ := h
  split at h
  · simp at h
  · rename_i hne
    simp only [Res.ok.injEq] at h
    have hf := (sizage_row hz).2.resolve_right (fun hv => hne hv.fs_eq)
    refine ⟨z, hz, hne, hf, ?_⟩
    rw [← h, hf.ss_zero, Nat.add_zero]

/-- An object built from code and raw whose final code is in the table is well formed. -/
theorem new_wf {code : Str} {raw : Bytes} {m : M} {z : Sizage}
    (h : newWithCodeAndRaw code raw = .ok m) (hz : sizage m.code = .ok z) : Wf m z := by
  rcases new_cases h with ⟨f, t, -, -, -, n, hn, hle, rfl⟩ | ⟨f, t, ls, x, -, -, hls, -, -, hsum, hc⟩
  · obtain ⟨z', hz', hne, hf, rfl⟩ := rawSize_ok hn
    simp only at hz
    rw [hz'] at hz
    obtain rfl := Res.ok.inj hz
    refine ⟨hz', fun _ => ⟨rfl, ?_⟩, fun h => absurd h hne⟩
    simp [hle]
  · obtain ⟨hr, hfix | hv⟩ := sizage_row hz
    · exfalso
      have hh := fixed_head _ (sizage_mem hz) hfix.fs_ne
      simp only at hh
      obtain ⟨-, -, -, hs, hl⟩ := small_large_disjoint ls hls ls hls
      rcases hc with ⟨-, -, -, hc⟩ | ⟨-, -, -, -, hc⟩ | ⟨-, -, -, hc⟩
      · exact (hh _ _ hc).1 hs
      · exact (hh _ _ hc).2 hl
      · exact (hh _ _ hc).2 hl
    · refine ⟨hz, fun h => absurd hv.fs_eq h, fun _ => ?_⟩
      obtain ⟨i1, i2, i3, -, -⟩ := small_large_disjoint ls hls z.ls hr.ls_le
      obtain ⟨-, -, i3', -, -⟩ := small_large_disjoint z.ls hr.ls_le ls hls
      rcases hc with ⟨-, -, hsz, hc⟩ | ⟨-, -, -, hsz, hc⟩ | ⟨-, -, hsz, hc⟩ <;>
        rcases hv.shape with ⟨a, b, hs⟩ | ⟨a, b, hs⟩ <;> rw [hc] at hs <;>
        simp only [List.cons.injEq] at hs
      · rw [← i1 hs.1, b]; exact ⟨hsum, hsz⟩
      · exact absurd hs.1 i3
      · exact absurd hs.1.symm i3'
      · rw [← i2 hs.1, b]; exact ⟨hsum, hsz⟩
      · exact absurd hs.1.symm i3'
      · rw [← i2 hs.1, b]; exact ⟨hsum, hsz⟩

/-- Well-formed objects are exactly what the constructor makes of their own code and raw. -/
theorem wf_new {m : M} {z : Sizage} (h : Wf m z) :
    newWithCodeAndRaw m.code m.raw = .ok m := by
  obtain ⟨hr, hfix | hv⟩ := sizage_row h.row
  · obtain ⟨f, t, hc, -⟩ := hr.hard
    have hh := fixed_head _ (sizage_mem h.row) hfix.fs_ne f t hc
    obtain ⟨hs, hl⟩ := h.fixed hfix.fs_ne
    unfold newWithCodeAndRaw
    split
    · rename_i heq; rw [hc] at heq; simp at heq
    · rename_i f' t' heq
      rw [hc] at heq; simp only [List.cons.injEq] at heq
      obtain ⟨rfl, rfl⟩ := heq
      rw [if_neg (by rintro (h | h); exacts [hh.1 h, hh.2 h]), rawSize, h.row, Res.ok_bind,
        if_neg hfix.fs_ne, Res.ok_bind, hfix.ss_zero, Nat.add_zero, ← hl, if_neg (by omega), ← hs,
        List.take_of_length_le (Nat.le_refl _)]
  · obtain ⟨hsum, hsz⟩ := h.var hv.fs_eq
    have hss : z.ss ≤ 4 := by rcases hv.hs_cases with ⟨a, b⟩ | ⟨a, b⟩ <;> omega
    have h4 : m.size < 64 ^ 4 := Nat.lt_of_lt_of_le hsz (Nat.pow_le_pow_right (by decide) hss)
    have hrl : m.raw.length < 2 ^ 32 := by
      have : (64 : Nat) ^ 4 = 16777216 := by decide
      omega
    have hmod : m.raw.length % 2 ^ 32 = m.raw.length := Nat.mod_eq_of_lt hrl
    have hls : (3 - m.raw.length % 3) % 3 = z.ls := by have := hr.ls_le; omega
    have hsize : (m.raw.length + z.ls) / 3 = m.size := by omega
    obtain ⟨-, -, -, hmems, hmeml⟩ := small_large_disjoint z.ls hr.ls_le z.ls hr.ls_le
    have hdis : ∀ c ∈ largeVrzDex, c ∉ smallVrzDex := by decide
    have hA := hr.code_b64.ascii
    rcases hv.shape with ⟨a, b, hc⟩ | ⟨a, b, hc⟩
    · have hslice : Str.slice m.code 1 2 = .ok (m.code.drop 1) := by
        rw [Str.slice, if_neg (by decide), sliceTo_ascii hA (by rw [hr.code_len, a]), Res.ok_bind]
        rw [List.take_of_length_le (by rw [hr.code_len, a])]
        exact sliceFrom_ascii hA (by rw [hr.code_len, a]; decide)
      unfold newWithCodeAndRaw
      split
      · rename_i heq; rw [hc] at heq; simp at heq
      · rename_i f' t' heq
        have hf' : f' = smallVrzDex.getD z.ls '4' := by
          rw [hc] at heq; simp only [List.cons.injEq] at heq; exact heq.1.symm
        rw [if_pos (by left; rw [hf']; exact hmems)]
        simp only [hmod, hls, hsize]
        rw [if_pos (by rw [hf']; exact hmems), if_pos (by rw [← b]; exact hsz), hslice, Res.ok_bind,
          Res.pure_eq, Res.ok_bind, if_neg (by omega), List.take_of_length_le (Nat.le_refl _)]
        have : smallVrzDex.getD z.ls '4' :: m.code.drop 1 = m.code := by
          conv_rhs => rw [hc]
          rw [hc]; rfl
        rw [this]
    · have hslice : Str.slice m.code 1 4 = .ok (m.code.drop 1) := by
        rw [Str.slice, if_neg (by decide), sliceTo_ascii hA (by rw [hr.code_len, a]), Res.ok_bind]
        rw [List.take_of_length_le (by rw [hr.code_len, a])]
        exact sliceFrom_ascii hA (by rw [hr.code_len, a]; decide)
      unfold newWithCodeAndRaw
      split
      · rename_i heq; rw [hc] at heq; simp at heq
      · rename_i f' t' heq
        have hf' : f' = largeVrzDex.getD z.ls '7' := by
          rw [hc] at heq; simp only [List.cons.injEq] at heq; exact heq.1.symm
        rw [if_pos (by right; rw [hf']; exact hmeml)]
        simp only [hmod, hls, hsize]
        rw [if_neg (by rw [hf']; exact hdis _ hmeml), if_pos h4, hslice, Res.ok_bind,
          Res.pure_eq, Res.ok_bind, if_neg (by omega), List.take_of_length_le (Nat.le_refl _)]
        have : largeVrzDex.getD z.ls '7' :: m.code.drop 1 = m.code := by
          conv_rhs => rw [hc]
          rw [hc]; rfl
        rw [this]

end Keride.Matter
