/-
Lemmas about the Counter model.
-/
import Verif.Lemmas.MatterSpec
import Verif.Model.Counter

namespace Keride.Counter

open Matter (idxs idxs_text text_idxs idxs_sextets slice_mid slice_ascii sxs sxs_sextets sxs_length sxs_take
  ncs_eq div_four_pow)

/-- What the table guarantees about a row. -/
structure RowOk (c : Str) (z : Sizage) : Prop where
  b64 : IsB64 c
  len : c.length = z.hs
  fs : z.fs = z.hs + z.ss
  cs4 : (z.hs + z.ss) % 4 = 0
  cs8 : z.hs + z.ss ≤ 8
  ss1 : 1 ≤ z.ss
  ss5 : z.ss ≤ 5
  hs2 : 2 ≤ z.hs
  hard : hardage (c.take 2) = .ok z.hs
  bard : bardage (idxs (c.take 2)) = .ok z.hs
  dash : (idxs (c.take 2))[0]? = some 62

instance (c : Str) (z : Sizage) : Decidable (RowOk c z) :=
  decidable_of_iff (IsB64 c ∧ c.length = z.hs ∧ z.fs = z.hs + z.ss ∧ (z.hs + z.ss) % 4 = 0 ∧
    z.hs + z.ss ≤ 8 ∧ 1 ≤ z.ss ∧ z.ss ≤ 5 ∧ 2 ≤ z.hs ∧ hardage (c.take 2) = .ok z.hs ∧
    bardage (idxs (c.take 2)) = .ok z.hs ∧ (idxs (c.take 2))[0]? = some 62)
    ⟨fun ⟨a, b, c, d, e, f, g, h, i, j, k⟩ => ⟨a, b, c, d, e, f, g, h, i, j, k⟩,
     fun ⟨a, b, c, d, e, f, g, h, i, j, k⟩ => ⟨a, b, c, d, e, f, g, h, i, j, k⟩⟩

theorem table_ok : ∀ e ∈ sizageTable, RowOk e.1 e.2 := by decide +kernel

theorem lookup_mem {α β : Type} [BEq α] [LawfulBEq α] {k : α} {v : β} :
    ∀ {l : List (α × β)}, l.lookup k = some v → (k, v) ∈ l
  | [], h => by simp at h
  | (a, b) :: l, h => by
    rw [List.lookup_cons] at h
    split at h
    · rename_i e
      rw [beq_iff_eq] at e
      simp only [Option.some.injEq] at h
      subst e h
      exact List.mem_cons_self
    · exact List.mem_cons_of_mem _ (lookup_mem h)

theorem sizage_mem {c : Str} {z : Sizage} (h : sizage c = .ok z) : (c, z) ∈ sizageTable :=
  lookup_mem (Res.ofOption_eq_ok.mp h)

theorem row_ok {c : Str} {z : Sizage} (h : sizage c = .ok z) : RowOk c z := table_ok _ (sizage_mem h)

/-- A counter the codec can represent. -/
def Wf (c : C) (z : Sizage) : Prop := sizage c.code = .ok z ∧ c.count < 64 ^ z.ss

/-- The sextets of a counter. -/
def sx (c : C) (z : Sizage) : List Nat := idxs c.code ++ toBase 64 z.ss c.count

theorem sx_sextets {c : C} {z : Sizage} (h : Wf c z) : Sextets (sx c z) :=
  Sextets.append.mpr ⟨idxs_sextets (row_ok h.1).b64, Sextets.toBase _ _⟩

theorem idxs_length (s : Str) : (idxs s).length = s.length := by simp [idxs]

theorem sx_length {c : C} {z : Sizage} (h : Wf c z) : (sx c z).length = z.hs + z.ss := by
  rw [sx, List.length_append, idxs_length, (row_ok h.1).len, toBase_length]

theorem sx_text {c : C} {z : Sizage} (h : Wf c z) :
    b64Text (sx c z) = c.code ++ b64Text (toBase 64 z.ss c.count) := by
  rw [sx, b64Text_append, text_idxs (row_ok h.1).b64]

theorem pow_ss {z : Sizage} {c : Str} (h : sizage c = .ok z) : 64 ^ z.ss ≤ 2 ^ 30 :=
  Nat.le_trans (Nat.pow_le_pow_right (by decide) (row_ok h).ss5) (by decide)

theorem new_iff {code : Str} {count : Nat} {c : C} :
    newWithCodeAndCount code count = .ok c ↔ c = ⟨code, count⟩ ∧ ∃ z, Wf ⟨code, count⟩ z := by
  constructor
  · intro h
    unfold newWithCodeAndCount at h
    split at h
    · cases h
    obtain ⟨z, hz, h⟩ := Res.bind_eq_ok.mp h
    dsimp only at h
    split at h
    · cases h
    split at h
    · cases h
    have : 0 < 64 ^ z.ss := Nat.pow_pos (by decide)
    exact ⟨(Res.ok.inj h).symm, z, hz, by simp only; omega⟩
  · rintro ⟨rfl, z, hz, hc⟩
    have r := row_ok hz
    simp only at hz hc r
    unfold newWithCodeAndCount
    have hne : code ≠ [] := by rintro rfl; have := r.len; have := r.hs2; simp at *; omega
    rw [if_neg hne, hz, Res.ok_bind]
    simp only
    rw [if_neg (by rw [not_or]; exact ⟨fun hh => hh r.fs, fun hh => hh r.cs4⟩), if_neg (by omega)]

theorem infil_wf {c : C} {z : Sizage} (h : Wf c z) : infil c = .ok (b64Text (sx c z)) := by
  have r := row_ok h.1
  have hp := pow_ss h.1
  unfold infil
  rw [h.1, Res.ok_bind]
  simp only
  rw [if_neg (by rw [not_or]; exact ⟨fun hh => hh r.fs, fun hh => hh r.cs4⟩),
    if_neg (by have := h.2; omega), u32ToB64, uToB64_eq r.ss1 h.2 (Nat.lt_of_lt_of_le h.2 (by omega)), Res.ok_bind,
    ← sx_text h, (isB64_text (sx_sextets h)).ascii.len, b64Text_length, sx_length h, if_neg (by simp)]

theorem qb2_wf {c : C} {z : Sizage} (h : Wf c z) :
    qb2 c = .ok (beBytes (3 * ((z.hs + z.ss) / 4)) (ofBase 64 (sx c z))) := by
  have r := row_ok h.1
  unfold qb2
  rw [infil_wf h, Res.ok_bind, codeB64ToB2_text (sx_sextets h) (by rw [sx_length h]; exact r.cs8), sx_length h,
    r.cs4, Nat.pow_zero, Nat.mul_one]
  have := r.cs4
  congr 2
  omega

theorem exfil_text {c : C} {z : Sizage} (h : Wf c z) (t : Str) : exfil (b64Text (sx c z) ++ t) = .ok c := by
  have r := row_ok h.1
  have hp := pow_ss h.1
  have hA := r.b64.ascii
  have hB : Ascii (b64Text (toBase 64 z.ss c.count)) := (isB64_text (Sextets.toBase _ _)).ascii
  have hl : Str.len (c.code ++ b64Text (toBase 64 z.ss c.count) ++ t) = z.hs + z.ss + Str.len t := by
    rw [Str.len_append, Str.len_append, hA.len, hB.len, r.len, b64Text_length, toBase_length]
  have h2 := r.hs2
  rw [sx_text h]
  unfold exfil
  rw [if_neg (by intro e; rw [e, Str.len] at hl; omega)]
  have e2 : c.code ++ b64Text (toBase 64 z.ss c.count) ++ t =
      c.code.take 2 ++ (c.code.drop 2 ++ b64Text (toBase 64 z.ss c.count) ++ t) := by
    simp only [← List.append_assoc, List.take_append_drop]
  have e3 : Str.sliceTo (c.code ++ b64Text (toBase 64 z.ss c.count) ++ t) 2 = .ok (c.code.take 2) := by
    rw [e2]
    exact sliceTo_of_prefix (hA.take 2) (by rw [List.length_take, r.len]; omega)
  rw [e3, Res.ok_bind, r.hard, Res.ok_bind, if_neg (by rw [hl]; omega), List.append_assoc,
    sliceTo_of_prefix hA r.len.symm, Res.ok_bind, h.1, Res.ok_bind]
  simp only
  rw [← List.append_assoc, if_neg (by rw [hl]; omega),
    slice_mid hA hB r.len.symm (by rw [r.len, b64Text_length, toBase_length]), Res.ok_bind,
    b64ToU64_text (Sextets.toBase _ _) (by rw [ofBase_toBase_of_lt h.2]; have := h.2; omega), Res.ok_bind,
    ofBase_toBase_of_lt h.2, Nat.mod_eq_of_lt (by have := h.2; omega)]

theorem sxs_append {c : C} {z : Sizage} (h : Wf c z) (t : Bytes) {L : Nat} (hL : L ≤ z.hs + z.ss) :
    sxs (beBytes (3 * ((z.hs + z.ss) / 4)) (ofBase 64 (sx c z)) ++ t) L = (sx c z).take L := by
  have r := row_ok h.1
  have h4 := r.cs4
  have hn : ((z.hs + z.ss + 1) * 3) / 4 = 3 * ((z.hs + z.ss) / 4) := by omega
  have hlt : ofBase 64 (sx c z) < 256 ^ (3 * ((z.hs + z.ss) / 4)) := by
    rw [← pow_64_4]; exact ofBase_sextets_lt (sx_sextets h) (by rw [sx_length h]; omega)
  have hfull : sxs (beBytes (3 * ((z.hs + z.ss) / 4)) (ofBase 64 (sx c z)) ++ t) (z.hs + z.ss) = sx c z := by
    rw [sxs, hn, List.take_left' (by simp), beVal_beBytes, Nat.mod_eq_of_lt hlt, h4, Nat.pow_zero, Nat.div_one,
      ← sx_length h, toBase_ofBase _ (sx_sextets h)]
  rw [← sxs_take hL (by rw [hn, List.length_append, beBytes_length]; omega), hfull]

theorem bexfil_bytes {c : C} {z : Sizage} (h : Wf c z) (t : Bytes) :
    bexfil (beBytes (3 * ((z.hs + z.ss) / 4)) (ofBase 64 (sx c z)) ++ t) = .ok c := by
  have r := row_ok h.1
  have h4 := r.cs4; have h8 := r.cs8; have h2 := r.hs2; have hs1 := r.ss1
  have hp := pow_ss h.1
  set q := beBytes (3 * ((z.hs + z.ss) / 4)) (ofBase 64 (sx c z)) ++ t with hq
  have hl : q.length = 3 * ((z.hs + z.ss) / 4) + t.length := by simp [hq]
  have hx : ∀ L ≤ z.hs + z.ss, sxs q L = (sx c z).take L := fun L hL => sxs_append h t hL
  have hcode : (sx c z).take z.hs = idxs c.code := by
    rw [sx, List.take_left' (by rw [idxs_length, r.len])]
  have htwo : (sx c z).take 2 = idxs (c.code.take 2) := by
    have e : idxs (c.code.take 2) = (idxs c.code).take 2 := by simp [idxs, List.map_take]
    rw [e, ← hcode, List.take_take, Nat.min_eq_left h2]
  unfold bexfil
  rw [if_neg (by intro e; rw [e] at hl; simp at hl; omega), nabSextets_eq (by omega)]
  have e1 := hx 2 (by omega)
  rw [sxs, htwo] at e1
  rw [e1, Res.ok_bind, r.dash, Res.orPanic_some, Res.ok_bind, if_neg (by decide), r.bard, Res.ok_bind,
    if_neg (by omega), codeB2ToB64_eq (by omega) (by omega) (by omega)]
  have e2 := hx z.hs (by omega)
  rw [sxs, hcode] at e2
  rw [e2, text_idxs r.b64, Res.ok_bind, h.1, Res.ok_bind]
  simp only
  rw [if_neg (by omega), codeB2ToB64_eq (by omega) h8 (by omega)]
  have e3 := hx (z.hs + z.ss) (by omega)
  rw [sxs, List.take_of_length_le (l := sx c z) (by rw [sx_length h])] at e3
  rw [e3, Res.ok_bind, sx_text h]
  have hB : Ascii (b64Text (toBase 64 z.ss c.count)) := (isB64_text (Sextets.toBase _ _)).ascii
  have e4 := slice_mid (t := []) r.b64.ascii hB (i := z.hs) (j := z.hs + z.ss) r.len.symm
    (by rw [r.len, b64Text_length, toBase_length])
  rw [List.append_nil] at e4
  rw [e4, Res.ok_bind, b64ToU32_text (Sextets.toBase _ _) (by rw [ofBase_toBase_of_lt h.2]; have := h.2; omega),
    Res.ok_bind, ofBase_toBase_of_lt h.2]

/-- Inversion: what `exfil` accepts is an encoding, with anything after it. -/
theorem exfil_ok {s : Str} {c : C} (h : exfil s = .ok c) :
    ∃ z rest, Wf c z ∧ s = b64Text (sx c z) ++ rest := by
  unfold exfil at h
  split at h
  · cases h
  obtain ⟨first, h1, h⟩ := Res.bind_eq_ok.mp h
  obtain ⟨hs, h2, h⟩ := Res.bind_eq_ok.mp h
  split at h
  · cases h
  obtain ⟨hard, h3, h⟩ := Res.bind_eq_ok.mp h
  obtain ⟨z, hz, h⟩ := Res.bind_eq_ok.mp h
  dsimp only at h
  split at h
  · cases h
  obtain ⟨soft, h4, h⟩ := Res.bind_eq_ok.mp h
  obtain ⟨n, h5, h⟩ := Res.bind_eq_ok.mp h
  have r := row_ok hz
  obtain ⟨t, ht, hl⟩ := sliceTo_ok h3
  rw [r.b64.ascii.len, r.len] at hl
  rw [Str.slice] at h4
  split at h4
  · cases h4
  obtain ⟨u, hu, h6⟩ := Res.bind_eq_ok.mp h4
  obtain ⟨v, hv, hvl⟩ := sliceTo_ok hu
  obtain ⟨w, hw, hwl⟩ := sliceFrom_ok h6
  have hsoft : IsB64 soft := b64ToUAux_ok h5
  have e : w = hard := by
    have e1 := sliceTo_len w (soft ++ v)
    rw [← List.append_assoc, ← hw, ← hv, hwl, hl, h3] at e1
    exact (Res.ok.inj e1).symm
  subst e
  have hsl : soft.length = z.ss := by
    rw [hw, Str.len_append, hwl, hsoft.ascii.len] at hvl
    omega
  have hds := idxs_sextets hsoft
  have htx := text_idxs hsoft
  have hlt : ofBase 64 (idxs soft) < 64 ^ z.ss := ofBase_sextets_lt hds (by rw [idxs_length]; omega)
  have hp := pow_ss hz
  rw [← htx, b64ToU64_text hds (by omega)] at h5
  have hn := Res.ok.inj h5
  subst hn
  have hc := (Res.ok.inj h).symm
  subst hc
  have hwf : Wf ⟨w, ofBase 64 (idxs soft) % 2 ^ 32⟩ z := ⟨hz, by
    rw [Nat.mod_eq_of_lt (by omega)]; exact hlt⟩
  refine ⟨z, v, hwf, ?_⟩
  rw [sx_text hwf, hv, hw]
  simp only
  have h3 := toBase_ofBase (idxs soft) hds
  rw [idxs_length, hsl] at h3
  rw [Nat.mod_eq_of_lt (by omega : ofBase 64 (idxs soft) < 2 ^ 32), h3, htx]

theorem bardage_le {b : List Nat} {n : Nat} (h : bardage b = .ok n) : 2 ≤ n ∧ n ≤ 5 := by
  have := lookup_mem (Res.ofOption_eq_ok.mp h)
  have h2 : ∀ e ∈ bardageTable, 2 ≤ e.2 ∧ e.2 ≤ 5 := by decide
  exact h2 _ this

/-- Inversion for binary. -/
theorem bexfil_ok {q : Bytes} {c : C} (h : bexfil q = .ok c) :
    ∃ z rest, Wf c z ∧ q = beBytes (3 * ((z.hs + z.ss) / 4)) (ofBase 64 (sx c z)) ++ rest := by
  unfold bexfil at h
  split at h
  · cases h
  obtain ⟨first, h1, h⟩ := Res.bind_eq_ok.mp h
  obtain ⟨f0, h2, h⟩ := Res.bind_eq_ok.mp h
  split at h
  · split at h <;> cases h
  obtain ⟨hs, h3, h⟩ := Res.bind_eq_ok.mp h
  split at h
  · cases h
  rename_i hlen
  obtain ⟨hard, h4, h⟩ := Res.bind_eq_ok.mp h
  obtain ⟨z, hz, h⟩ := Res.bind_eq_ok.mp h
  dsimp only at h
  split at h
  · cases h
  rename_i hlen2
  obtain ⟨both, h5, h⟩ := Res.bind_eq_ok.mp h
  obtain ⟨soft, h6, h⟩ := Res.bind_eq_ok.mp h
  obtain ⟨n, h7, h⟩ := Res.bind_eq_ok.mp h
  have r := row_ok hz
  have hc4 := r.cs4; have hc8 := r.cs8; have hss := r.ss1
  obtain ⟨hb2, hb5⟩ := bardage_le h3
  have hp := pow_ss hz
  rw [codeB2ToB64_eq (by omega) (by omega) (by omega)] at h4
  have hh : hard = b64Text (sxs q hs) := (Res.ok.inj h4).symm
  have hhs : hs = z.hs := by rw [← r.len, hh, b64Text_length, sxs_length]
  subst hhs
  rw [codeB2ToB64_eq (by omega) hc8 (by omega)] at h5
  have hbo : both = b64Text (sxs q (z.hs + z.ss)) := (Res.ok.inj h5).symm
  rw [hbo, slice_ascii (isB64_text (sxs_sextets _ _)).ascii (by omega) (by rw [b64Text_length, sxs_length]),
    List.take_of_length_le (by rw [b64Text_length, sxs_length]), b64Text_drop] at h6
  have hsf : soft = b64Text ((sxs q (z.hs + z.ss)).drop z.hs) := (Res.ok.inj h6).symm
  have hds : Sextets ((sxs q (z.hs + z.ss)).drop z.hs) := (sxs_sextets _ _).drop _
  have hdl : ((sxs q (z.hs + z.ss)).drop z.hs).length = z.ss := by
    rw [List.length_drop, sxs_length]; omega
  have hlt : ofBase 64 ((sxs q (z.hs + z.ss)).drop z.hs) < 64 ^ z.ss := ofBase_sextets_lt hds (by omega)
  rw [hsf, b64ToU32_text hds (by omega)] at h7
  have hn := (Res.ok.inj h7).symm
  subst hn
  have hc := (Res.ok.inj h).symm
  subst hc
  have hwf : Wf ⟨hard, ofBase 64 ((sxs q (z.hs + z.ss)).drop z.hs)⟩ z := ⟨hz, hlt⟩
  refine ⟨z, q.drop (3 * ((z.hs + z.ss) / 4)), hwf, ?_⟩
  have e : sx ⟨hard, ofBase 64 ((sxs q (z.hs + z.ss)).drop z.hs)⟩ z = sxs q (z.hs + z.ss) := by
    have e1 := toBase_ofBase _ hds
    rw [hdl] at e1
    rw [sx]
    simp only
    rw [e1, hh, idxs_text (sxs_sextets _ _), ← sxs_take (by omega : z.hs ≤ z.hs + z.ss) (by omega),
      List.take_append_drop]
  rw [e, sxs, hc4, Nat.pow_zero, Nat.div_one, show ((z.hs + z.ss + 1) * 3) / 4 = 3 * ((z.hs + z.ss) / 4) by omega]
  have hql : (q.take (3 * ((z.hs + z.ss) / 4))).length = 3 * ((z.hs + z.ss) / 4) := by
    rw [List.length_take]; omega
  have hv := beVal_lt (q.take (3 * ((z.hs + z.ss) / 4)))
  rw [hql, ← pow_64_4, show 4 * ((z.hs + z.ss) / 4) = z.hs + z.ss by omega] at hv
  rw [ofBase_toBase_of_lt hv, beBytes_beVal' hql, List.take_append_drop]

theorem hardage_le {b : Str} {n : Nat} (h : hardage b = .ok n) : 2 ≤ n ∧ n ≤ 5 := by
  have := lookup_mem (Res.ofOption_eq_ok.mp h)
  have h2 : ∀ e ∈ hardageTable, 2 ≤ e.2 ∧ e.2 ≤ 5 := by decide
  exact h2 _ this

theorem b64ToU64_ne_panic (s : Str) : b64ToU64 s ≠ .panic := by
  by_cases h : IsB64 s
  · obtain ⟨ds, hds, rfl⟩ := isB64_iff.mp h
    rw [b64ToU64, b64ToUAux_text (by decide) ds hds 0 (by decide)]
    exact nofun
  · rw [b64ToU64, b64ToUAux_not h]; exact nofun

theorem exfil_panic_iff {s : Str} (hA : Ascii s) : exfil s = .panic ↔ s.length = 1 := by
  have hl := hA.len
  constructor
  · intro h
    by_contra hne
    unfold exfil at h
    split at h
    · cases h
    rename_i h0
    have := List.length_pos_iff.mpr h0
    rw [sliceTo_ascii hA (by omega), Res.ok_bind] at h
    rcases Res.bind_eq_panic.mp h with h | ⟨hs, h1, h⟩
    · exact Res.ofOption_ne_panic h
    split at h
    · cases h
    rw [sliceTo_ascii hA (by omega), Res.ok_bind] at h
    rcases Res.bind_eq_panic.mp h with h | ⟨z, hz, h⟩
    · exact Res.ofOption_ne_panic h
    dsimp only at h
    split at h
    · cases h
    rw [slice_ascii hA (by omega) (by omega), Res.ok_bind] at h
    rcases Res.bind_eq_panic.mp h with h | ⟨n, h2, h⟩
    · exact b64ToU64_ne_panic _ h
    · cases h
  · intro h
    match s, h with
    | [c], _ =>
      have hc : c.utf8Size = 1 := hA c List.mem_cons_self
      unfold exfil
      rw [if_neg (by simp)]
      have : Str.sliceTo [c] 2 = .panic := by simp [Str.sliceTo, hc]
      rw [this, Res.panic_bind]

theorem bexfil_ne_panic (q : Bytes) : bexfil q ≠ .panic := by
  intro h
  unfold bexfil at h
  split at h
  · cases h
  by_cases hq : q.length < ((2 + 1) * 3) / 4
  · rw [nabSextets_short hq, Res.err_bind] at h; cases h
  rw [nabSextets_eq (by omega), Res.ok_bind] at h
  rcases Res.bind_eq_panic.mp h with h | ⟨f0, h1, h⟩
  · rw [List.getElem?_eq_getElem (by rw [toBase_length]; omega), Res.orPanic_some] at h
    cases h
  split at h
  · split at h <;> cases h
  rcases Res.bind_eq_panic.mp h with h | ⟨hs, h2, h⟩
  · exact Res.ofOption_ne_panic h
  obtain ⟨hb2, hb5⟩ := bardage_le h2
  split at h
  · cases h
  rw [codeB2ToB64_eq (by omega) (by omega) (by omega), Res.ok_bind] at h
  rcases Res.bind_eq_panic.mp h with h | ⟨z, hz, h⟩
  · exact Res.ofOption_ne_panic h
  have r := row_ok hz
  have h8 := r.cs8; have hh := r.hs2
  have hhs : hs = z.hs := by rw [← r.len, b64Text_length, toBase_length]
  dsimp only at h
  split at h
  · cases h
  rw [codeB2ToB64_eq (by omega) h8 (by omega), Res.ok_bind,
    slice_ascii (isB64_text (Sextets.toBase _ _)).ascii (by omega) (by rw [b64Text_length, toBase_length]),
    Res.ok_bind] at h
  rcases Res.bind_eq_panic.mp h with h | ⟨n, h2, h⟩
  · exact Matter.b64ToU32_ne_panic _ h
  · cases h

theorem wf_unique {c : C} {z z' : Sizage} (h : Wf c z) (h' : Wf c z') : z = z' := by
  have := h.1
  rw [h'.1] at this
  exact (Res.ok.inj this).symm

theorem isErr_of {α : Type} {x : Res α} (h1 : x ≠ .panic) (h2 : ∀ a, x ≠ .ok a) : x.isErr = true := by
  cases x with
  | ok a => exact absurd rfl (h2 a)
  | err e => rfl
  | panic => exact absurd rfl h1

theorem exfil_truncated {c : C} {z : Sizage} (h : Wf c z) {k : Nat} (hk : k < z.hs + z.ss) (h1 : k ≠ 1) :
    (exfil ((b64Text (sx c z)).take k)).isErr = true := by
  have hA := (isB64_text (sx_sextets h)).ascii
  have hl : ((b64Text (sx c z)).take k).length = k := by
    rw [List.length_take, b64Text_length, sx_length h]; omega
  refine isErr_of (fun hp => ?_) fun c' hc' => ?_
  · rw [exfil_panic_iff (hA.take k), hl] at hp
    exact h1 hp
  · obtain ⟨z', rest, hw', he⟩ := exfil_ok hc'
    have e : b64Text (sx c z) = b64Text (sx c' z') ++ (rest ++ (b64Text (sx c z)).drop k) := by
      rw [← List.append_assoc, ← he, List.take_append_drop]
    have e1 := exfil_text h []
    rw [List.append_nil, e, exfil_text hw'] at e1
    obtain rfl := Res.ok.inj e1
    obtain rfl := wf_unique h hw'
    rw [he, List.length_append, b64Text_length, sx_length h] at hl
    omega

theorem bexfil_truncated {c : C} {z : Sizage} (h : Wf c z) {k : Nat} (hk : k < 3 * ((z.hs + z.ss) / 4)) :
    (bexfil ((beBytes (3 * ((z.hs + z.ss) / 4)) (ofBase 64 (sx c z))).take k)).isErr = true := by
  refine isErr_of (bexfil_ne_panic _) fun c' hc' => ?_
  obtain ⟨z', rest, hw', he⟩ := bexfil_ok hc'
  have hl := congrArg List.length he
  rw [List.length_take, beBytes_length, List.length_append, beBytes_length] at hl
  have e := List.take_append_drop k (beBytes (3 * ((z.hs + z.ss) / 4)) (ofBase 64 (sx c z)))
  rw [he, List.append_assoc] at e
  have e1 := bexfil_bytes h []
  rw [List.append_nil, ← e, bexfil_bytes hw'] at e1
  obtain rfl := Res.ok.inj e1
  obtain rfl := wf_unique h hw'
  omega

/-- Decimal digits of every byte parse back. -/
theorem parse_dec : ∀ n < 256, parseSigned 10 (-128) 127 (Nat.toDigits 10 n) =
    (if n < 128 then some (n : Int) else none) ∧ '.' ∉ Nat.toDigits 10 n ∧ Nat.toDigits 10 n ≠ [] := by
  decide +kernel

theorem splitChar_nosep (d : Char) : ∀ s : Str, d ∉ s → splitChar d s = [s]
  | [], _ => rfl
  | c :: s, h => by
    rw [List.mem_cons, not_or] at h
    rw [splitChar, if_neg (fun e => h.1 e.symm), splitChar_nosep d s h.2]

theorem splitChar_append (d : Char) (t : Str) : ∀ s : Str, d ∉ s →
    splitChar d (s ++ d :: t) = s :: splitChar d t
  | [], _ => by rw [List.nil_append, splitChar, if_pos rfl]
  | c :: s, h => by
    rw [List.mem_cons, not_or] at h
    rw [List.cons_append, splitChar, if_neg (fun e => h.1 e.symm), splitChar_append d t s h.2]

theorem go_parts : ∀ ps : List Nat, (∀ p ∈ ps, p ≤ 63) → semVerPartsToB64.go ps = .ok (b64Text ps)
  | [], _ => rfl
  | p :: ps, h => by
    have hp : p < 64 := by have := h p List.mem_cons_self; omega
    have e : u32ToB64 p 1 = .ok [b64Chr p] := by
      rw [u32ToB64, uToB64_eq (by decide) (by simpa using hp) (by omega)]
      simp [toBase, b64Text, Nat.mod_eq_of_lt hp]
    rw [semVerPartsToB64.go, e]
    simp only [Res.isErr, Bool.false_eq_true, if_false, Res.ok_bind]
    rw [go_parts ps (fun x hx => h x (List.mem_cons_of_mem _ hx))]
    rfl

theorem semVer_eq (ps : List Nat) :
    semVerPartsToB64 ps = if ∀ p ∈ ps, p ≤ 63 then .ok (b64Text ps) else .err .parsing := by
  unfold semVerPartsToB64
  by_cases h : ∀ p ∈ ps, p ≤ 63
  · rw [if_pos h, if_neg (by rintro ⟨p, hp, h2⟩; have := h p hp; omega), go_parts ps h]
  · rw [if_neg h, if_pos (by
      simp only [not_forall] at h
      obtain ⟨p, hp, h2⟩ := h
      exact ⟨p, hp, by omega⟩)]

theorem semVerPart_dec {n : Nat} (h : n < 256) : semVerPart (Nat.toDigits 10 n) =
    if n < 128 then .ok n else .err .conversion := by
  obtain ⟨h1, -, h3⟩ := parse_dec n h
  unfold semVerPart
  by_cases hn : n < 128
  · simp only [h1, if_pos hn]; simp
  · simp only [h1, if_neg hn, if_neg h3]

end Keride.Counter
