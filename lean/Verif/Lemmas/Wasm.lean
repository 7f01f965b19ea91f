/-
Lemmas about the model of the JavaScript bindings.
-/
import Verif.Model.Wasm
import Verif.Lemmas.Kmi
import Verif.Props.Json
import Verif.Props.Number

namespace Keride.Wasm

open Spec Matter Sample Props

theorem low_lt (n : Nat) : (U128.ofNat n).toNat < 2 ^ 64 :=
  Nat.or_lt_two_pow (Nat.mod_lt _ (by decide)) (Nat.mod_lt _ (by decide))

/-- What comes back: the two halves over each other. -/
theorem halves (n : Nat) (h : n < 2 ^ 128) : (U128.ofNat n).toNat = n ↔ n < 2 ^ 64 := by
  constructor
  · intro e
    have := low_lt n
    omega
  · intro hn
    unfold U128.ofNat U128.toNat
    dsimp only
    rw [Nat.div_eq_of_lt hn, Nat.mod_eq_of_lt hn]
    simp

theorem number_bound {m : M} {n : Nat} (h : Number.num m = .ok n) : n < 2 ^ 128 := by
  have key : ∀ k, k ≤ 16 → Number.readBe k m.raw = .ok n → n < 2 ^ 128 := by
    intro k hk h
    unfold Number.readBe at h
    split at h
    · rename_i hl
      cases h
      calc beVal m.raw < 256 ^ m.raw.length := beVal_lt _
        _ ≤ 256 ^ 16 := Nat.pow_le_pow_right (by decide) (by omega)
        _ = 2 ^ 128 := by decide
    · cases h
  unfold Number.num at h
  repeat' split at h
  all_goals first | exact key _ (by decide) h | cases h

theorem seqner_bound {m : M} {n : Nat} (h : Seqner.sn m = .ok n) : n < 2 ^ 128 := by
  unfold Seqner.sn at h
  split at h
  · cases h
    calc beVal (m.raw.take 16) < 256 ^ (m.raw.take 16).length := beVal_lt _
      _ ≤ 256 ^ 16 := Nat.pow_le_pow_right (by decide) (by simp)
      _ = 2 ^ 128 := by decide
  · cases h

/-- A built event is an object. -/
theorem ked_obj {fl : Str → Option Str} {code : Option Str} {raw : Option Bytes} {kind : Option Str} {ked : Option Value} {s : Sad}
    (h : Serder.new fl code raw kind ked none = .ok s) : ∃ o, s.ked = .obj o := by
  have key : ∀ {code raw ked ident kind size version s}, Sadder.finish code raw ked ident kind size version = .ok s → ∃ o, s.ked = .obj o := by
    intro code raw ked ident kind size version s h
    unfold Sadder.finish at h
    obtain ⟨d, hd, h⟩ := Res.bind_eq_ok.mp h
    obtain ⟨t, -, h⟩ := Res.bind_eq_ok.mp h
    obtain ⟨m, -, h⟩ := Res.bind_eq_ok.mp h
    split at h
    · cases h
    · cases h
      cases ked <;> first | exact ⟨_, rfl⟩ | cases hd
  unfold Serder.new at h
  obtain ⟨s', h', h⟩ := Res.bind_eq_ok.mp h
  split at h
  · cases h
  · cases h
    unfold Sadder.new at h'
    dsimp only at h'
    split at h'
    · unfold Sadder.populateFromRaw at h'
      obtain ⟨r, -, h'⟩ := Res.bind_eq_ok.mp h'
      obtain ⟨b, -, h'⟩ := Res.bind_eq_ok.mp h'
      exact key h'
    · split at h'
      · unfold Sadder.populateFromKed at h'
        obtain ⟨r, -, h'⟩ := Res.bind_eq_ok.mp h'
        exact key h'
      · cases h'

/-- A saidified document is an object. -/
theorem saidify_obj {H : Hash} {chk : Bool} {sad : Value} {code kind label : Option Str} {ignore : Option (List Str)} {r : M × Value}
    (h : Saider.saidify H chk sad code kind label ignore = .ok r) : ∃ o, r.2 = .obj o := by
  unfold Saider.saidify at h
  dsimp only at h
  obtain ⟨map, -, h⟩ := Res.bind_eq_ok.mp h
  split at h
  · cases h
  · obtain ⟨d, -, h⟩ := Res.bind_eq_ok.mp h
    obtain ⟨m, -, h⟩ := Res.bind_eq_ok.mp h
    obtain ⟨q, -, h⟩ := Res.bind_eq_ok.mp h
    obtain ⟨x, hx, h⟩ := Res.bind_eq_ok.mp h
    cases h
    unfold Value.setIndex at hx
    split at hx
    · cases hx
      exact ⟨_, rfl⟩
    · cases hx

/-- The text of a plain value reads as the value. -/
theorem read_text (fl : Str → Option Str) {v : Value} (hv : Plain v) (hd : nesting v ≤ 127) : readValue fl v.toJson = .ok v := by
  unfold readValue
  rw [C47_roundtrip_partial fl v hv hd]
  rfl

theorem fine_tholdOf (rs : List (List Ratio)) : Fine (Tholder.tholdOf rs) := by
  unfold Tholder.tholdOf
  refine fine_arr fun v hv => ?_
  obtain ⟨c, -, rfl⟩ := List.mem_map.mp hv
  have inner : ∀ v ∈ c.map (fun w => Value.str (Tholder.weightText w)), Plain v ∧ nesting v ≤ 0 := by
    intro v hv
    obtain ⟨w, -, rfl⟩ := List.mem_map.mp hv
    exact ⟨(fine_str _).1, by simp [nesting]⟩
  constructor
  · unfold Plain
    rw [Proper, properArr_iff]
    exact fun v hv => (inner v hv).1
  · rw [nesting]
    have : nestingArr (c.map fun w => Value.str (Tholder.weightText w)) ≤ 0 := nestingArr_le.mpr fun v hv => (inner v hv).2
    omega

/-- The values a threshold is written as. -/
theorem threshold_texts {chk : Bool} {json : Str → Res Value} (json' : Str → Res Value) {t : Tholder} (h : Accepted chk json t) (hne : t.thold ≠ .arr []) :
    (∃ v, t.sith = .ok v ∧ Fine v ∧ Tholder.newWithSith chk json' v = .ok t) ∧ Fine t.thold ∧ Tholder.newWithThold chk t.thold = .ok t := by
  rcases accepted_wf h with ⟨n, hw⟩ | ⟨rs, hrs⟩
  · obtain ⟨h1, h2⟩ := Tholder.sith_numeric chk json' hw
    refine ⟨⟨_, h1, fine_str _, h2⟩, ?_, Tholder.thold_numeric chk hw⟩
    obtain ⟨hn, m, -, rfl⟩ := hw
    refine ⟨?_, by simp [nesting]⟩
    unfold Plain
    rw [Proper]
    have : n ≤ 2 ^ 32 - 1 := hn
    constructor <;> omega
  · have hrne : rs ≠ [] := by
      rintro rfl
      rw [hrs.thold] at hne
      exact hne rfl
    obtain ⟨v, v1, v4, v2, v3⟩ := Tholder.sith_weighted json' hrs hrne
    refine ⟨⟨v, v1, ?_, v4⟩, by rw [hrs.thold]; exact fine_tholdOf rs, Tholder.thold_weighted hrs⟩
    by_cases h1 : rs.length = 1
    · obtain ⟨c, rfl⟩ := List.length_eq_one_iff.mp h1
      rw [v2 c rfl]
      refine fine_arr fun v hv => ?_
      obtain ⟨w, -, rfl⟩ := List.mem_map.mp hv
      exact ⟨(fine_str _).1, by simp [nesting]⟩
    · rw [v3 h1, hrs.thold]
      exact fine_tholdOf rs

end Keride.Wasm
