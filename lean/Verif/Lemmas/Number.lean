import Verif.Lemmas.Typed
import Verif.Lemmas.Num
import Verif.Model.Number

namespace Keride

open Spec Matter

theorem beVal_cons (a : UInt8) (as : Bytes) : beVal (a :: as) = a.toNat * 256 ^ as.length + beVal as := by
  have := beVal_append [a] as
  rw [List.singleton_append] at this
  rw [this]; simp [beVal, ofBase]

/-- On byte strings of equal length the dictionary order is the order of the big-endian values. -/
theorem lt_iff_beVal_lt {a b : Bytes} (hl : a.length = b.length) : a < b ↔ beVal a < beVal b := by
  induction a generalizing b with
  | nil =>
    cases b with
    | nil => simp
    | cons y b => simp at hl
  | cons x a ih =>
    cases b with
    | nil => simp at hl
    | cons y b =>
      simp only [List.length_cons, Nat.add_right_cancel_iff] at hl
      rw [List.cons_lt_cons_iff, ih hl, beVal_cons, beVal_cons, hl]
      have h1 := beVal_lt a
      have h2 := beVal_lt b
      rw [hl] at h1
      rw [UInt8.lt_iff_toNat_lt]
      constructor
      · rintro (h | ⟨rfl, h⟩)
        · have : (x.toNat + 1) * 256 ^ b.length ≤ y.toNat * 256 ^ b.length := Nat.mul_le_mul_right _ h
          rw [Nat.add_mul] at this; omega
        · omega
      · intro h
        by_cases hxy : x.toNat < y.toNat
        · exact Or.inl hxy
        · right
          have : x.toNat = y.toNat := by
            by_contra hne
            have : (y.toNat + 1) * 256 ^ b.length ≤ x.toNat * 256 ^ b.length :=
              Nat.mul_le_mul_right _ (by omega)
            rw [Nat.add_mul] at this; omega
          refine ⟨UInt8.toNat_inj.mp this, ?_⟩
          rw [this] at h; omega

namespace Number

/-- The number codes with their sizes. -/
def sizes : List (Str × Nat) := [(str% "M", 2), (str% "0H", 4), (str% "N", 8), (str% "0A", 16)]

theorem sizes_fixed : ∀ e ∈ sizes, e ∈ fixedCodes := by decide +kernel

theorem num_of {m : M} {k : Nat} (h : (m.code, k) ∈ sizes) :
    num m = if m.raw.length = k then .ok (beVal m.raw) else .panic := by
  have h' : m.code = str% "M" ∧ k = 2 ∨ m.code = str% "0H" ∧ k = 4 ∨ m.code = str% "N" ∧ k = 8 ∨
      m.code = str% "0A" ∧ k = 16 := by simpa [sizes] using h
  rcases h' with ⟨hc, rfl⟩ | ⟨hc, rfl⟩ | ⟨hc, rfl⟩ | ⟨hc, rfl⟩ <;> rw [num, hc] <;> rfl

theorem num_cases (m : M) : (∃ k, (m.code, k) ∈ sizes) ∨ num m = .err .unexpectedCode := by
  by_cases h1 : m.code = str% "M"
  · exact Or.inl ⟨2, by rw [h1]; decide⟩
  by_cases h2 : m.code = str% "0H"
  · exact Or.inl ⟨4, by rw [h2]; decide⟩
  by_cases h3 : m.code = str% "N"
  · exact Or.inl ⟨8, by rw [h3]; decide⟩
  by_cases h4 : m.code = str% "0A"
  · exact Or.inl ⟨16, by rw [h4]; decide⟩
  exact Or.inr (by rw [num, if_neg h1, if_neg h2, if_neg h3, if_neg h4])

theorem num_wf {m : M} {z : Sizage} (h : Wf m z) : num m ≠ .panic := by
  rcases num_cases m with ⟨k, hk⟩ | h'
  · rw [num_of hk, if_pos (wf_fixed h (sizes_fixed _ hk)).2]; simp
  · rw [h']; simp

theorem ofNum_eq {n : Nat} (h : n < 2 ^ 128) : ∃ c k, (c, k) ∈ sizes ∧ n < 256 ^ k ∧
    (∀ e ∈ sizes, n < 256 ^ e.2 → k ≤ e.2) ∧ ofNum n = .ok ⟨c, 0, beBytes k n⟩ := by
  have hp : (2 : Nat) ^ 128 = 256 ^ 16 := by decide
  have key : ∀ e ∈ sizes, newWithCodeAndRaw e.1 (beBytes e.2 n) = .ok ⟨e.1, 0, beBytes e.2 n⟩ := by
    intro e he
    rw [new_fixed (sizes_fixed e he), if_neg (by simp), List.take_of_length_le (by simp)]
  rw [ofNum]
  split
  · rename_i h1
    exact ⟨_, 2, by decide, h1, by simp [sizes], key (str% "M", 2) (by decide)⟩
  · rename_i h1
    split
    · rename_i h2
      refine ⟨_, 4, by decide, h2, ?_, key (str% "0H", 4) (by decide)⟩
      intro e he hlt
      simp only [sizes, List.mem_cons, List.not_mem_nil, or_false] at he
      rcases he with rfl | rfl | rfl | rfl
      · exact absurd hlt h1
      all_goals decide
    · rename_i h2
      split
      · rename_i h3
        refine ⟨_, 8, by decide, h3, ?_, key (str% "N", 8) (by decide)⟩
        intro e he hlt
        simp only [sizes, List.mem_cons, List.not_mem_nil, or_false] at he
        rcases he with rfl | rfl | rfl | rfl
        · exact absurd hlt h1
        · exact absurd hlt h2
        all_goals decide
      · rename_i h3
        refine ⟨_, 16, by decide, by omega, ?_, key (str% "0A", 16) (by decide)⟩
        intro e he hlt
        simp only [sizes, List.mem_cons, List.not_mem_nil, or_false] at he
        rcases he with rfl | rfl | rfl | rfl
        · exact absurd hlt h1
        · exact absurd hlt h2
        · exact absurd hlt h3
        · decide

theorem newWithNum_eq (n : Nat) : newWithNum n = ofNum n := rfl

theorem newWithNumh_eq {h : Str} (hne : h ≠ []) :
    newWithNumh h = parseUnsigned 16 u128Max h >>= ofNum := by
  change (if h = [] then (.ok 0 : Res Nat) else parseUnsigned 16 u128Max h) >>= ofNum = _
  rw [if_neg hne]

/-- A well-formed object of a table code comes back from its encodings. -/
theorem roundtrip (chk : Bool) {m : M} {z : Sizage} (h : Wf m z) :
    ∃ s b, qb64 chk m = .ok s ∧ qb2 m = .ok b ∧ Matter.newWithQb64 s = .ok m ∧
      Matter.newWithQb64b (toUtf8 s) = .ok m ∧ Matter.newWithQb2 b = .ok m ∧ IsB64 s ∧
      s.length = fsz m z ∧ b = bcode m z ++ List.replicate z.ls 0 ++ m.raw := by
  have h1 := exfil_text h []
  have h2 := bexfil_bytes h []
  rw [List.append_nil] at h1 h2
  refine ⟨_, _, infil_wf chk h, binfil_wf h, h1, ?_, h2, isB64_sx h, ?_, bytes_sx h⟩
  · rw [Matter.newWithQb64b, fromUtf8_toUtf8, Res.ok_bind]; exact h1
  · rw [b64Text_length, sx_length h]

theorem wf_of_new {c : Str} {raw : Bytes} {m : M} (hc : c ∈ matterCodes)
    (h : newWithCodeAndRaw c raw = .ok m) : ∃ z, Wf m z := new_table hc h

theorem wf_fixed_mk {c : Str} {k : Nat} {raw : Bytes} (hc : (c, k) ∈ fixedCodes) (hl : raw.length = k) :
    ∃ z, Wf ⟨c, 0, raw⟩ z :=
  new_table (raw := raw) (fixed_mem _ hc) (by
    rw [new_fixed hc raw, if_neg (by omega), List.take_of_length_le (by omega)])

end Number

namespace Seqner

/-- The end of `Seqner::new`: only code `0A` passes. -/
theorem finish {x : Res M} {raw : Bytes} (h : x = .ok ⟨str% "0A", 0, raw⟩) :
    (x >>= fun m => validateCode m.code >>= fun _ => .ok m) = .ok ⟨str% "0A", 0, raw⟩ := by
  rw [h, Res.ok_bind]; rfl

theorem mk16 (n : Nat) : newWithCodeAndRaw (str% "0A") (beBytes 16 n) = .ok ⟨str% "0A", 0, beBytes 16 n⟩ := by
  rw [new_fixed (n := 16) (by decide), if_neg (by simp), List.take_of_length_le (by simp)]

theorem newWithSn_eq (n : Nat) : newWithSn n = .ok ⟨str% "0A", 0, beBytes 16 n⟩ := by
  unfold newWithSn new
  simp only [Option.isNone_none, and_self, if_true, Res.ok_bind, Option.getD_none, Matter.new]
  exact finish (mk16 n)

theorem newWithSnh_eq {h : Str} {n : Nat} (hp : parseUnsigned 16 u128Max h = .ok n) :
    newWithSnh h = .ok ⟨str% "0A", 0, beBytes 16 n⟩ := by
  unfold newWithSnh new
  simp only [Option.isNone_none, and_self, if_true, hp, Res.ok_bind, Option.getD_none, Matter.new]
  exact finish (mk16 n)

theorem newWithQb64_eq {s : Str} {raw : Bytes} (h : Matter.newWithQb64 s = .ok ⟨str% "0A", 0, raw⟩) :
    newWithQb64 s = .ok ⟨str% "0A", 0, raw⟩ := by
  unfold newWithQb64 new
  rw [if_neg (by simp), Res.ok_bind]
  exact finish h

theorem newWithQb64b_eq {s : Bytes} {raw : Bytes} (h : Matter.newWithQb64b s = .ok ⟨str% "0A", 0, raw⟩) :
    newWithQb64b s = .ok ⟨str% "0A", 0, raw⟩ := by
  unfold newWithQb64b new
  rw [if_neg (by simp), Res.ok_bind]
  exact finish h

theorem newWithQb2_eq {s : Bytes} {raw : Bytes} (h : Matter.newWithQb2 s = .ok ⟨str% "0A", 0, raw⟩) :
    newWithQb2 s = .ok ⟨str% "0A", 0, raw⟩ := by
  unfold newWithQb2 new
  rw [if_neg (by simp), Res.ok_bind]
  exact finish h

end Seqner

end Keride
