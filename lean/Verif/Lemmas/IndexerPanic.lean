/-
Exactly which texts, of any characters, make the text parser of `Indexer` panic.
-/
import Verif.Lemmas.IndexerMore
import Verif.Lemmas.MatterPanic3
import Verif.Spec.Sigs

namespace Keride.Indexer

open Str
open Matter (number_ok b64ToU32_ne_panic)
open Spec (Splits IndexEnds indexCodes)

/-- The row of the table in terms of the list of codes. -/
def Row (c : Str) (z : Sizage) (e : Spec.IndexCode) : Prop :=
  e.code = c ∧ z.hs = c.length ∧ z.ss = e.indexChars + e.ondexChars ∧ z.os = e.ondexChars ∧ e.currentOnly = current c ∧
    e.chars = if z.fs = u32Max then none else some z.fs

instance (c : Str) (z : Sizage) (e : Spec.IndexCode) : Decidable (Row c z e) := by unfold Row; infer_instance

theorem row_listed : ∀ x ∈ sizageTable, ∃ e ∈ indexCodes, Row x.1 x.2 e := by decide +kernel
theorem listed_row : ∀ e ∈ indexCodes, ∃ x ∈ sizageTable, Row x.1 x.2 e := by decide +kernel
theorem sizage_of : ∀ x ∈ sizageTable, sizage x.1 = .ok x.2 := by decide +kernel

theorem hardage_two {c : Char} : hardage c = .ok 2 ↔ c ∈ str% "01234" := by
  have h2 : c ∈ (str% "01234") ↔ 48 ≤ c.toNat ∧ c.toNat ≤ 52 := by
    constructor
    · intro h
      have : ∀ x ∈ (str% "01234"), 48 ≤ x.toNat ∧ x.toNat ≤ 52 := by decide
      exact this c h
    · intro h
      have hall : ∀ k < 53, 48 ≤ k → Char.ofNat k ∈ (str% "01234") := by decide
      have := hall c.toNat (by omega) (by omega)
      rwa [Char.ofNat_toNat] at this
  rw [h2]
  unfold hardage
  dsimp only
  split
  · constructor
    · intro h; cases h
    · intro h; omega
  · split
    · exact ⟨fun _ => by assumption, fun _ => rfl⟩
    · constructor
      · intro h
        split at h
        · cases h
        · split at h <;> cases h
      · intro h
        contradiction

theorem hardage_one {c : Char} (h : hardage c = .ok 1) : c.utf8Size = 1 := by
  unfold hardage at h
  dsimp only at h
  split at h
  · rename_i hc
    have hall : ∀ k < 128, (Char.ofNat k).utf8Size = 1 := by decide
    have := hall c.toNat (by omega)
    rwa [Char.ofNat_toNat] at this
  · split at h
    · cases h
    · split at h
      · cases h
      · split at h <;> cases h

theorem hardage_cases {c : Char} {n : Nat} (h : hardage c = .ok n) : n = 1 ∨ n = 2 := by
  unfold hardage at h
  dsimp only at h
  split at h
  · cases h; exact .inl rfl
  · split at h
    · cases h; exact .inr rfl
    · split at h
      · cases h
      · split at h <;> cases h

theorem readOndex_read {z : Sizage} {hard odx : Str} {index o : Nat} (hl : len odx = z.os) (ho : z.os ≤ 3) (h : readOndex z hard odx index = .ok o) :
    IsB64 odx ∧ odx.length = z.os ∧ (current hard = true → Spec.b64Number odx = 0) := by
  by_cases h0 : z.os = 0
  · have : odx = [] := by
      cases odx with
      | nil => rfl
      | cons c t =>
        have := c.utf8Size_pos
        rw [len] at hl
        omega
    subst this
    exact ⟨fun _ h => (by simp at h), h0.symm, fun _ => rfl⟩
  have key : ∀ {n}, b64ToU32 odx = .ok n → IsB64 odx ∧ odx.length = z.os ∧ n = Spec.b64Number odx := by
    intro n hn
    have hB : IsB64 odx := b64ToUAux_ok hn
    have hl' : odx.length = z.os := by rw [← hB.ascii.len, hl]
    have := number_ok hB (by omega)
    rw [hn] at this
    exact ⟨hB, hl', Res.ok.inj this⟩
  unfold readOndex at h
  split at h
  · obtain ⟨n, hn, h⟩ := Res.bind_eq_ok.mp h
    obtain ⟨k1, k2, k3⟩ := key hn
    split at h
    · cases h
    · rename_i hz
      exact ⟨k1, k2, fun _ => by rw [← k3]; simpa using hz⟩
  · rename_i hc
    obtain ⟨k1, k2, -⟩ := key h
    exact ⟨k1, k2, fun h => absurd h hc⟩

theorem readOndex_good {z : Sizage} {hard odx : Str} {index : Nat} (hB : IsB64 odx) (hl : odx.length = z.os) (ho : z.os ≤ 3)
    (hc : current hard = true → Spec.b64Number odx = 0) : ∃ o, readOndex z hard odx index = .ok o := by
  have := number_ok hB (by omega)
  unfold readOndex
  split
  · rename_i h
    split
    · rw [this, Res.ok_bind, if_neg (by simpa using hc h)]
      exact ⟨_, rfl⟩
    · exact ⟨_, rfl⟩
  · split
    · exact ⟨_, this⟩
    · exact ⟨_, rfl⟩

/-- A place that ends a part of the primitive, inside a character. -/
def Torn (s : Str) : Prop := ∃ n, IndexEnds s n ∧ Splits s n

theorem exfil_torn {chk : Bool} {s : Str} (h : exfil chk s = .panic) : Torn s := by
  cases s with
  | nil => cases h
  | cons first s0 =>
  unfold exfil at h
  dsimp only at h
  obtain ⟨q, hq⟩ : ∃ q, q = first :: s0 := ⟨_, rfl⟩
  rw [← hq] at h ⊢
  rcases Res.bind_eq_panic.mp h with h | ⟨hs, h1, h⟩
  · exact absurd h (hardage_ne_panic _)
  split at h
  · cases h
  rename_i g1
  rcases sliceTo_cases (s := q) (n := hs) (by omega) with ⟨c, t, hc, hck, hcs⟩ | ⟨hsp, -⟩
  swap
  · rcases hardage_cases h1 with rfl | rfl
    · obtain ⟨a, d, b, e1, e2, e3⟩ := hsp
      have := hardage_one h1
      cases a with
      | nil =>
        rw [hq] at e1
        cases e1
        simp only [len] at e2 e3
        omega
      | cons x a =>
        have := x.utf8Size_pos
        rw [len] at e2
        omega
    · exact ⟨2, .code first s0 hq (hardage_two.mp h1), hsp⟩
  rw [hcs, Res.ok_bind] at h
  rcases Res.bind_eq_panic.mp h with h | ⟨z, hz, h⟩
  · exact absurd h Res.ofOption_ne_panic
  have r := row_ok hz
  have hms := r.ms1; have hcs' := r.cs; have hos := r.os3
  obtain ⟨e, he, r1, r2, r3, r4, r5, r6⟩ := row_listed _ (sizage_mem hz)
  dsimp only at r1 r2 r3 r4 r5 r6
  have hcl : len c = c.length := r.b64.ascii.len
  have hpre : c <+: q := ⟨t, hc.symm⟩
  split at h
  · cases h
  rename_i g2
  have hic : z.ss - z.os = e.indexChars := by omega
  -- the index
  rcases sliceTo_cases (s := q) (n := hs + (z.ss - z.os)) (by omega) with ⟨a, b, ha, hal, has⟩ | ⟨hsp, -⟩
  swap
  · refine ⟨_, .index e he (by rw [r1]; exact hpre) (by rw [r1]; omega), ?_⟩
    rwa [r1, ← hic, ← hcl, hck]
  obtain ⟨idx, rfl⟩ := prefix_of_len hc ha (by omega)
  have hil : len idx = e.indexChars := by
    rw [len_append] at hal
    omega
  have hsl : Str.slice q hs (hs + (z.ss - z.os)) = .ok idx := by
    unfold Str.slice
    rw [if_neg (by omega), has, Res.ok_bind, ← hck, from_append]
  rw [hsl, Res.ok_bind] at h
  rcases Res.bind_eq_panic.mp h with h | ⟨index, h2, h⟩
  · exact absurd h (b64ToU32_ne_panic _)
  have hiB : IsB64 idx := b64ToUAux_ok h2
  have hil' : idx.length = e.indexChars := by rw [← hiB.ascii.len, hil]
  have hin := number_ok hiB (by have := r.ms3; omega)
  rw [h2] at hin
  have hin := Res.ok.inj hin
  -- the ondex
  rcases sliceTo_cases (s := q) (n := hs + (z.ss - z.os + z.os)) (by omega) with ⟨a', b', ha', hal', has'⟩ | ⟨hsp, -⟩
  swap
  · refine ⟨_, .ondex e idx he hil' hiB (by rw [r1]; exact ⟨b, ha.symm⟩), ?_⟩
    rwa [r1, ← hic, ← r4, ← hcl, hck, Nat.add_assoc]
  obtain ⟨odx, rfl⟩ := prefix_of_len ha ha' (by omega)
  have hol : len odx = z.os := by
    rw [len_append] at hal'
    omega
  have hsl' : Str.slice q (hs + (z.ss - z.os)) (hs + (z.ss - z.os + z.os)) = .ok odx := by
    unfold Str.slice
    rw [if_neg (by omega), has', Res.ok_bind, ← hal, from_append]
  rw [hsl', Res.ok_bind] at h
  rcases Res.bind_eq_panic.mp h with h | ⟨ondex, h3, h⟩
  · exact absurd h (readOndex_ne_panic _ _ _ _)
  obtain ⟨hoB, hol', hcur⟩ := readOndex_read hol hos h3
  obtain ⟨hi, -⟩ := b64ToU32_inv h2 (k := z.ss - z.os) (by omega) r.ms3
  rw [sizeOf_ok chk _ _ hz hi, Res.ok_bind] at h
  obtain ⟨F, hF⟩ : ∃ F, F = if z.fs = u32Max then index * 4 + (z.hs + z.ss) else z.fs := ⟨_, rfl⟩
  rw [← hF] at h
  have hFc : z.hs + z.ss ≤ F ∧ ((z.hs + z.ss) % 4 ≠ 0 ∨ z.ls ≠ 0 → z.hs + z.ss + 4 ≤ F ∧ z.ls ≤ 1) := by
    rw [hF]
    split
    · rename_i e; have := r.var e
      exact ⟨by omega, by omega⟩
    · rename_i e; have := r.fixed e
      refine ⟨by omega, fun _ => ⟨by omega, ?_⟩⟩
      by_cases hl : z.ls = 0
      · omega
      · have := r.lead hl; omega
  split at h
  · cases h
  rename_i g3
  rcases sliceTo_cases (s := q) (n := F) (by omega) with ⟨trim, rest, htr, htl, hts⟩ | ⟨hsp, -⟩
  swap
  · refine ⟨_, .all e idx odx he hil' hiB (by omega) hoB (by rw [r5]; exact hcur) (by rw [r1]; exact ⟨b', ha'.symm⟩), ?_⟩
    have : e.chars.getD (e.code.length + e.indexChars + e.ondexChars + 4 * Spec.b64Number idx) = F := by
      rw [r6, hF]
      split
      · rw [Option.getD_none, r1, ← hin]; omega
      · rfl
    rw [this]
    exact hsp
  -- nothing else panics
  exfalso
  obtain ⟨body, rfl⟩ := prefix_of_len ha' htr (by omega)
  have hbl : len body = F - (z.hs + z.ss) := by
    rw [len_append] at htl
    omega
  have hsf : Str.sliceFrom (c ++ idx ++ odx ++ body) (z.hs + z.ss) = .ok body := by
    rw [show z.hs + z.ss = len (c ++ idx ++ odx) by omega, from_append]
  rw [hts, Res.ok_bind, hsf, Res.ok_bind] at h
  have hasc : ∀ {p paw}, b64Decode (p ++ body) = .ok paw → body.length = F - (z.hs + z.ss) := by
    intro p paw hp
    rw [← hbl]
    have : Ascii (p ++ body) := by
      obtain ⟨-, hshape⟩ := b64Decode_ok hp
      have hB : ∀ {x : Str}, IsB64 x → Ascii x := fun h => h.ascii
      rcases hshape with ⟨e, -⟩ | ⟨t, e1, e2, -⟩ | ⟨t, e1, e2, -⟩
      · exact hB e
      · rw [e1]
        exact Ascii.append.mpr ⟨hB e2, by intro c hc; simp at hc; subst hc; decide⟩
      · rw [e1]
        exact Ascii.append.mpr ⟨hB e2, by intro c hc; simp at hc; subst hc; decide⟩
    exact (Ascii.append.mp this).2.len.symm
  rcases Res.bind_eq_panic.mp h with h | ⟨raw, -, h⟩
  · by_cases hp : (z.hs + z.ss) % 4 = 0
    · rw [if_neg (by omega)] at h
      rcases Res.bind_eq_panic.mp h with h | ⟨paw, h4, h⟩
      · exact b64Decode_ne_panic _ h
      have hd := decode_len h4
      have hbl' := hasc (p := []) h4
      rw [Bytes.sliceTo, if_pos (by
        by_cases hls : z.ls = 0
        · omega
        · have := hFc.2 (.inr hls); omega), Res.ok_bind] at h
      split at h
      · split at h <;> cases h
      rw [Bytes.sliceFrom, if_pos (by omega)] at h
      cases h
    · rw [if_pos hp] at h
      rcases Res.bind_eq_panic.mp h with h | ⟨paw, h4, h⟩
      · exact b64Decode_ne_panic _ h
      have hd := decode_len h4
      have hbl' := hasc h4
      rw [List.length_append, List.length_replicate] at hd
      have hF2 := hFc.2 (.inl hp)
      have hm : F % 4 = 0 := by
        rw [hF]
        split
        · rename_i e; have := r.var e; omega
        · rename_i e; have := r.fixed e; omega
      have hps : (z.hs + z.ss) % 4 ≤ paw.length := by
        have := (b64Decode_ok h4).1
        rw [List.length_append, List.length_replicate] at this
        omega
      rw [Bytes.sliceTo, if_pos hps, Res.ok_bind, if_pos hp] at h
      split at h
      · cases h
      rw [Bytes.sliceFrom, if_pos hps] at h
      cases h
  · cases h

theorem torn_exfil (chk : Bool) {s : Str} (h : Torn s) : exfil chk s = .panic := by
  obtain ⟨n, he, hs⟩ := h
  have hlt := splits_lt hs
  have start : ∀ {c z} (idx : Str), sizage c = .ok z → c <+: s → z.hs + z.ss ≤ len s → exfil chk s = (do
        let idx ← Str.slice s z.hs (z.hs + (z.ss - z.os))
        let index ← b64ToU32 idx
        let odx ← Str.slice s (z.hs + (z.ss - z.os)) (z.hs + (z.ss - z.os + z.os))
        let ondex ← readOndex z c odx index
        let fs ← sizeOf chk .validation .validation z index
        if Str.len s < fs then .err .shortage
        else do
          let trim ← Str.sliceTo s fs
          let ps := (z.hs + z.ss) % 4
          let pbs := 2 * (if ps ≠ 0 then ps else z.ls)
          let body ← Str.sliceFrom trim (z.hs + z.ss)
          let raw ← (if ps ≠ 0 then do
              let paw ← b64Decode (List.replicate ps 'A' ++ body)
              let pre ← Bytes.sliceTo paw ps
              if beVal pre &&& (2 ^ pbs - 1) ≠ 0 then .err .prepad
              else Bytes.sliceFrom paw ps
            else do
              let paw ← b64Decode body
              let lead ← Bytes.sliceTo paw z.ls
              if beVal lead ≠ 0 then
                if z.ls = 1 then .err .nonZeroedLeadByte else .err .nonZeroedLeadBytes
              else Bytes.sliceFrom paw ps : Res Bytes)
          .ok { code := c, raw := raw, index := index, ondex := ondex }) := by
    rintro c z - hz ⟨t, rfl⟩ hl
    have r := row_ok hz
    have hcl : len c = z.hs := by rw [r.b64.ascii.len, r.len]
    have h1 : Str.sliceTo (c ++ t) z.hs = .ok c := by rw [← hcl]; exact to_append
    have h2 : ¬ Str.len (c ++ t) < z.hs := by omega
    have hh := r.hard
    cases c with
    | nil => simp at hh
    | cons f ct =>
      simp only [List.head?_cons, Option.map_some, Option.some.injEq] at hh
      clear hs hlt he
      have h3 : ¬ len (f :: ct ++ t) < z.hs + z.ss := by omega
      rw [List.cons_append] at *
      unfold exfil
      dsimp only
      rw [hh, Res.ok_bind, if_neg h2, h1, Res.ok_bind, hz, Res.ok_bind, if_neg h3]
  have look : ∀ {e : Spec.IndexCode}, e ∈ indexCodes → ∃ z, sizage e.code = .ok z ∧ Row e.code z e := by
    intro e he
    obtain ⟨⟨c, z⟩, hx, h1, h2⟩ := listed_row e he
    dsimp only at h1
    subst h1
    exact ⟨z, sizage_of _ hx, rfl, h2⟩
  have sl : ∀ {a u : Str} {i j : Nat}, a ++ u <+: s → len a = i → len (a ++ u) = j → Str.slice s i j = .ok u := by
    rintro a u i j ⟨t, ht⟩ rfl rfl
    unfold Str.slice
    rw [if_neg (by rw [len_append]; omega), ← ht, to_append, Res.ok_bind, from_append]
  cases he with
  | code c rest e hc =>
    subst e
    unfold exfil
    dsimp only
    rw [hardage_two.mpr hc, Res.ok_bind, if_neg (by omega), splits_panic hs]
    rfl
  | index e he hpre hl =>
    obtain ⟨z, hz, -, r2, r3, r4, -, -⟩ := look he
    rw [start [] hz hpre (by omega)]
    unfold Str.slice
    rw [if_neg (by omega), show z.hs + (z.ss - z.os) = e.code.length + e.indexChars by omega, splits_panic hs]
    rfl
  | ondex e idx he hil hiB hpre =>
    obtain ⟨z, hz, -, r2, r3, r4, -, -⟩ := look he
    have r := row_ok hz
    have hm3 := r.ms3
    have hcl : len e.code = e.code.length := r.b64.ascii.len
    have hi : len idx = idx.length := IsB64.ascii hiB |>.len
    rw [start [] hz ((List.prefix_append _ _).trans hpre) (by omega), sl hpre (by omega) (by rw [len_append]; omega), Res.ok_bind, number_ok hiB (by omega), Res.ok_bind]
    unfold Str.slice
    rw [if_neg (by omega), show z.hs + (z.ss - z.os + z.os) = e.code.length + e.indexChars + e.ondexChars by omega, splits_panic hs]
    rfl
  | all e idx odx he hil hiB hol hoB hcur hpre =>
    obtain ⟨z, hz, -, r2, r3, r4, r5, r6⟩ := look he
    have r := row_ok hz
    have hm3 := r.ms3
    have hcl : len e.code = e.code.length := r.b64.ascii.len
    have hi : len idx = idx.length := IsB64.ascii hiB |>.len
    have ho : len odx = odx.length := IsB64.ascii hoB |>.len
    have hpre' : e.code ++ idx <+: s := (List.prefix_append _ _).trans hpre
    have hlen : z.hs + z.ss ≤ len s := by
      obtain ⟨t, rfl⟩ := hpre
      rw [len_append, len_append, len_append]
      omega
    obtain ⟨o, hro⟩ := readOndex_good (z := z) (hard := e.code) (index := Spec.b64Number idx) hoB (by omega) r.os3 (by rw [← r5]; exact hcur)
    have hn := number_ok hiB (by omega)
    obtain ⟨hb, -⟩ := b64ToU32_inv hn (k := z.ss - z.os) (by omega) r.ms3
    rw [start [] hz ((List.prefix_append _ _).trans hpre') hlen, sl hpre' (by omega) (by rw [len_append]; omega), Res.ok_bind, hn, Res.ok_bind,
      sl hpre (by rw [len_append]; omega) (by rw [len_append, len_append]; omega), Res.ok_bind, hro, Res.ok_bind, sizeOf_ok chk _ _ hz hb, Res.ok_bind]
    have hF : (if z.fs = u32Max then Spec.b64Number idx * 4 + (z.hs + z.ss) else z.fs) =
        e.chars.getD (e.code.length + e.indexChars + e.ondexChars + 4 * Spec.b64Number idx) := by
      rw [r6]
      split
      · rw [Option.getD_none]; omega
      · rfl
    rw [hF, if_neg (by omega), splits_panic hs]
    rfl

/-- Exactly which texts make the text parser panic. -/
theorem exfil_panic_iff {chk : Bool} {s : Str} : exfil chk s = .panic ↔ ∃ n, IndexEnds s n ∧ Splits s n := ⟨exfil_torn, torn_exfil chk⟩

end Keride.Indexer
