/-
Lemmas about the Indexer model: encodings and their parsing.
-/
import Verif.Lemmas.Frame
import Verif.Lemmas.Counter
import Verif.Model.Indexer

namespace Keride.Indexer

open Matter (idxs idxs_text text_idxs idxs_sextets slice_mid slice_ascii sxs sxs_sextets sxs_length sxs_take
  ncs_eq div_four_pow u32ToB64_soft text_len b64ToU32_soft soft_text drop_be_low)
open Counter (lookup_mem idxs_length isErr_of)

/-- What the table guarantees about a row. -/
structure RowOk (c : Str) (z : Sizage) : Prop where
  b64 : IsB64 c
  len : c.length = z.hs
  hs1 : 1 ≤ z.hs
  hs2 : z.hs ≤ 2
  ms1 : z.os + 1 ≤ z.ss
  ms3 : z.ss - z.os ≤ 3
  os3 : z.os ≤ 3
  cs : z.hs + z.ss = 2 ∨ z.hs + z.ss = 4 ∨ z.hs + z.ss = 6 ∨ z.hs + z.ss = 8
  hard : (c.head?.map fun x => hardage x) = some (.ok z.hs)
  bard : ((idxs c).head?.map bardage) = some (.ok z.hs)
  fixed : z.fs ≠ u32Max → z.fs % 4 = 0 ∧ z.hs + z.ss + 4 ≤ z.fs ∧ z.fs < 1000 ∧
    8 * ((z.fs - (z.hs + z.ss)) * 3 / 4) + 2 * ((z.hs + z.ss) % 4) = 6 * (z.fs - (z.hs + z.ss))
  var : z.fs = u32Max → (z.hs + z.ss) % 4 = 0 ∧ z.os = 0 ∧ z.ls = 0
  lead : z.ls ≠ 0 → z.ls = 1 ∧ (z.hs + z.ss) % 4 = 0 ∧ z.fs ≠ u32Max

instance (c : Str) (z : Sizage) : Decidable (RowOk c z) :=
  decidable_of_iff (IsB64 c ∧ c.length = z.hs ∧ 1 ≤ z.hs ∧ z.hs ≤ 2 ∧ z.os + 1 ≤ z.ss ∧ z.ss - z.os ≤ 3 ∧
    z.os ≤ 3 ∧ (z.hs + z.ss = 2 ∨ z.hs + z.ss = 4 ∨ z.hs + z.ss = 6 ∨ z.hs + z.ss = 8) ∧
    (c.head?.map fun x => hardage x) = some (.ok z.hs) ∧ ((idxs c).head?.map bardage) = some (.ok z.hs) ∧
    (z.fs ≠ u32Max → z.fs % 4 = 0 ∧ z.hs + z.ss + 4 ≤ z.fs ∧ z.fs < 1000 ∧
      8 * ((z.fs - (z.hs + z.ss)) * 3 / 4) + 2 * ((z.hs + z.ss) % 4) = 6 * (z.fs - (z.hs + z.ss))) ∧
    (z.fs = u32Max → (z.hs + z.ss) % 4 = 0 ∧ z.os = 0 ∧ z.ls = 0) ∧
    (z.ls ≠ 0 → z.ls = 1 ∧ (z.hs + z.ss) % 4 = 0 ∧ z.fs ≠ u32Max))
    ⟨fun ⟨a, b, c, d, e, f, g, h, i, j, k, l, m⟩ => ⟨a, b, c, d, e, f, g, h, i, j, k, l, m⟩,
     fun ⟨a, b, c, d, e, f, g, h, i, j, k, l, m⟩ => ⟨a, b, c, d, e, f, g, h, i, j, k, l, m⟩⟩

theorem table_ok : ∀ e ∈ sizageTable, RowOk e.1 e.2 := by decide +kernel

theorem sizage_mem {c : Str} {z : Sizage} (h : sizage c = .ok z) : (c, z) ∈ sizageTable :=
  lookup_mem (Res.ofOption_eq_ok.mp h)

theorem row_ok {c : Str} {z : Sizage} (h : sizage c = .ok z) : RowOk c z := table_ok _ (sizage_mem h)

/-- Number of characters of the encoding. -/
def fsz (m : I) (z : Sizage) : Nat := if z.fs = u32Max then m.index * 4 + (z.hs + z.ss) else z.fs

/-- The codec can represent `m`. -/
structure Enc (m : I) (z : Sizage) : Prop where
  row : sizage m.code = .ok z
  ls0 : z.ls = 0
  idx : m.index < 64 ^ (z.ss - z.os)
  odx : 0 < z.os → m.ondex < 64 ^ z.os
  len : m.raw.length = (fsz m z - (z.hs + z.ss)) * 3 / 4

/-- The sextets of code, index and ondex. -/
def codeSx (m : I) (z : Sizage) : List Nat :=
  idxs m.code ++ toBase 64 (z.ss - z.os) m.index ++ toBase 64 z.os m.ondex

/-- The sextets of the encoding. -/
def sx (m : I) (z : Sizage) : List Nat := frameSx (codeSx m z) (fsz m z) m.raw

theorem codeSx_sextets {m : I} {z : Sizage} (h : sizage m.code = .ok z) : Sextets (codeSx m z) :=
  Sextets.append.mpr ⟨Sextets.append.mpr ⟨idxs_sextets (row_ok h).b64, Sextets.toBase _ _⟩, Sextets.toBase _ _⟩

theorem codeSx_length {m : I} {z : Sizage} (h : sizage m.code = .ok z) : (codeSx m z).length = z.hs + z.ss := by
  have := (row_ok h).ms1
  rw [codeSx, List.length_append, List.length_append, idxs_length, (row_ok h).len, toBase_length, toBase_length]
  omega

theorem pow3 {n k : Nat} (h : n < 64 ^ k) (hk : k ≤ 3) : n < 2 ^ 18 :=
  Nat.lt_of_lt_of_le h (Nat.le_trans (Nat.pow_le_pow_right (by decide) hk) (by decide))

theorem Enc.frame {m : I} {z : Sizage} (h : Enc m z) : Frame (codeSx m z).length (fsz m z) m.raw := by
  have r := row_ok h.row
  rw [codeSx_length h.row]
  have hl := h.len
  unfold fsz at hl ⊢
  split at hl
  · rename_i e
    obtain ⟨h1, -, -⟩ := r.var e
    rw [if_pos e]
    exact ⟨by omega, by omega, by omega⟩
  · rename_i e
    obtain ⟨h1, h2, h3, h4⟩ := r.fixed e
    rw [if_neg e]
    exact ⟨h1, by omega, by omega⟩

theorem sx_sextets {m : I} {z : Sizage} (h : Enc m z) : Sextets (sx m z) := frameSx_sextets (codeSx_sextets h.row)

theorem sx_length {m : I} {z : Sizage} (h : Enc m z) : (sx m z).length = fsz m z := frameSx_length h.frame

theorem u32ToB64_any {n k : Nat} (h : 0 < k → n < 64 ^ k) (hk : k ≤ 4) :
    u32ToB64 n k = .ok (b64Text (toBase 64 k n)) := by
  rcases Nat.eq_zero_or_pos k with rfl | h0
  · rfl
  · exact u32ToB64_soft h0 (h h0) hk

theorem sizeOf_ok (chk : Bool) (e1 e2 : Err) {c : Str} {z : Sizage} {index : Nat} (h : sizage c = .ok z)
    (hi : index < 64 ^ (z.ss - z.os)) :
    sizeOf chk e1 e2 z index = .ok (if z.fs = u32Max then index * 4 + (z.hs + z.ss) else z.fs) := by
  have r := row_ok h
  have hlt := pow3 hi r.ms3
  unfold sizeOf
  split
  · rename_i e
    obtain ⟨h1, h2, -⟩ := r.var e
    have hcs := r.cs
    rw [if_neg (by omega), if_neg (by omega), mulU32, if_pos (by omega), Res.ok_bind, addU32, if_pos (by omega)]
  · rfl

theorem code_text {m : I} {z : Sizage} (h : sizage m.code = .ok z) :
    b64Text (codeSx m z) = m.code ++ b64Text (toBase 64 (z.ss - z.os) m.index) ++ b64Text (toBase 64 z.os m.ondex) := by
  rw [codeSx, b64Text_append, b64Text_append, text_idxs (row_ok h).b64]

theorem sx_text {m : I} {z : Sizage} (h : Enc m z) :
    b64Text (sx m z) = b64Text (codeSx m z) ++ b64Text (toBase 64 (fsz m z - (z.hs + z.ss)) (beVal m.raw)) := by
  rw [sx, frameSx, b64Text_append, codeSx_length h.row]

theorem infil_wf (chk : Bool) {m : I} {z : Sizage} (h : Enc m z) : infil chk m = .ok (b64Text (sx m z)) := by
  have r := row_ok h.row
  have hf := h.frame
  rw [codeSx_length h.row] at hf
  have hb := hf.bits; have hle := hf.le; have hmod := hf.mod
  have hps : (3 - m.raw.length % 3) % 3 = (z.hs + z.ss) % 4 := by have := r.cs; omega
  have hms := r.ms1
  unfold infil
  rw [h.row, Res.ok_bind]
  simp only
  rw [sizeOf_ok chk _ _ h.row h.idx, Res.ok_bind, if_neg (by have := h.idx; omega),
    if_neg (by rintro ⟨h1, h2⟩; have := h.odx h1; omega),
    u32ToB64_any (fun _ => h.idx) (by have := r.ms3; omega), Res.ok_bind,
    u32ToB64_any h.odx (by have := r.os3; omega), Res.ok_bind, ← code_text h.row,
    text_len (codeSx_sextets h.row), codeSx_length h.row, if_neg (by simp), h.ls0, subU32, if_pos (Nat.zero_le _),
    Res.ok_bind, Nat.sub_zero, hps, if_neg (by simp), frame_encode hf,
    sliceFrom_of_prefix (isB64_text (Sextets.replicate_zero _)).ascii (by simp), Res.ok_bind, ← sx_text h,
    text_len (sx_sextets h), sx_length h, fsz, if_neg (by simp)]

theorem bytes_sx {m : I} {z : Sizage} (h : Enc m z) :
    beBytes (3 * (fsz m z / 4)) (ofBase 64 (sx m z)) =
      beBytes (((z.hs + z.ss + 1) * 3) / 4) (ofBase 64 (codeSx m z) * 4 ^ ((z.hs + z.ss) % 4)) ++ m.raw := by
  have := frame_bytes h.frame
  rw [codeSx_length h.row] at this
  exact this

/-- The `binfil` index limit: `64^ss - 1`, which for `ss = 6` only exists without overflow checks. -/
theorem limit_ok {chk : Bool} {ss n : Nat} (h : chk = false ∨ ss < 6) (h6 : ss ≤ 6) (hn : n < 64 ^ ss) (h18 : n < 2 ^ 18) :
    ∃ x, (do let p ← powU32 chk 64 ss
             subU32 chk p 1) = .ok x ∧ ¬ x < n := by
  rcases Nat.lt_or_ge ss 6 with h5 | h5
  · have hp : 64 ^ ss ≤ 64 ^ 5 := Nat.pow_le_pow_right (by decide) (by omega)
    have h0 : 0 < 64 ^ ss := Nat.pow_pos (by decide)
    refine ⟨64 ^ ss - 1, ?_, by omega⟩
    rw [powU32, if_pos (by omega), Res.ok_bind, subU32, if_pos (by omega)]
  · have e : ss = 6 := by omega
    subst e
    rcases h with rfl | h
    · exact ⟨2 ^ 32 - 1, by decide, by omega⟩
    · omega

theorem binfil_wf {chk : Bool} {m : I} {z : Sizage} (h : Enc m z) (hc : chk = false ∨ z.ss < 6) :
    binfil chk m = .ok (beBytes (3 * (fsz m z / 4)) (ofBase 64 (sx m z))) := by
  have r := row_ok h.row
  have hf := h.frame
  rw [codeSx_length h.row] at hf
  have hb := hf.bits; have hle := hf.le; have hmod := hf.mod
  have hps : (3 - m.raw.length % 3) % 3 = (z.hs + z.ss) % 4 := by have := r.cs; omega
  have hms := r.ms1
  have hos := r.os3
  have hms3 := r.ms3
  have hcs := r.cs
  have hhs := r.hs1
  have hlt := pow3 h.idx r.ms3
  obtain ⟨x, hx, hxn⟩ := limit_ok hc (n := m.index) (by omega)
    (Nat.lt_of_lt_of_le h.idx (Nat.pow_le_pow_right (by decide) (by omega))) hlt
  obtain ⟨p, hp, hx⟩ := Res.bind_eq_ok.mp hx
  have hds := codeSx_sextets h.row
  have hdl := codeSx_length h.row
  have hcl : ofBase 64 (codeSx m z) < 64 ^ (z.hs + z.ss) := by
    rw [← hdl]; exact ofBase_lt _ _ hds
  have hp4 : ∀ v, v <<< (2 * ((z.hs + z.ss) % 4)) = v * 4 ^ ((z.hs + z.ss) % 4) := by
    intro v; rw [Nat.shiftLeft_eq, Nat.pow_mul]
  unfold binfil
  rw [h.row, Res.ok_bind]
  simp only
  rw [hp, Res.ok_bind, hx, Res.ok_bind, if_neg hxn,
    if_neg (by rintro ⟨h1, h2⟩; have := h.odx (by omega); omega),
    sizeOf_ok chk _ _ h.row h.idx, Res.ok_bind,
    u32ToB64_any (fun _ => h.idx) (by omega), Res.ok_bind,
    u32ToB64_any h.odx (by omega), Res.ok_bind, ← code_text h.row,
    text_len hds, hdl, if_neg (by simp), h.ls0, subU32, if_pos (Nat.zero_le _),
    Res.ok_bind, Nat.sub_zero, hps, if_neg (by simp)]
  have hfull : ∃ full, (if ((z.hs + z.ss + 1) * 3) / 4 ≤ 3 then do
              let v ← b64ToU32 (b64Text (codeSx m z))
              .ok (beBytes 4 (v <<< (2 * ((z.hs + z.ss) % 4))))
            else if ((z.hs + z.ss + 1) * 3) / 4 ≤ 6 then do
              let v ← b64ToU64 (b64Text (codeSx m z))
              .ok (beBytes 8 (v <<< (2 * ((z.hs + z.ss) % 4))))
            else .err .invalidCodeSize : Res Bytes) = .ok full ∧
      full.drop (full.length - ((z.hs + z.ss + 1) * 3) / 4) =
        beBytes (((z.hs + z.ss + 1) * 3) / 4) (ofBase 64 (codeSx m z) * 4 ^ ((z.hs + z.ss) % 4)) := by
    by_cases hn : ((z.hs + z.ss + 1) * 3) / 4 ≤ 3
    · have hlt : ofBase 64 (codeSx m z) < 2 ^ 32 := Nat.lt_of_lt_of_le hcl
        (Nat.le_trans (Nat.pow_le_pow_right (by decide) (by omega : z.hs + z.ss ≤ 5)) (by decide))
      rw [if_pos hn, b64ToU32_text hds hlt, Res.ok_bind]
      exact ⟨_, rfl, by rw [hp4]; exact drop_be_low (by omega)⟩
    · have hlt : ofBase 64 (codeSx m z) < 2 ^ 64 := Nat.lt_of_lt_of_le hcl
        (Nat.le_trans (Nat.pow_le_pow_right (by decide) (by omega : z.hs + z.ss ≤ 8)) (by decide))
      rw [if_neg hn, if_pos (by omega), b64ToU64_text hds hlt, Res.ok_bind]
      exact ⟨_, rfl, by rw [hp4]; exact drop_be_low (by omega)⟩
  obtain ⟨full, hfu, hdr⟩ := hfull
  rw [hfu, Res.ok_bind, hdr, List.replicate_zero, List.append_nil, ← bytes_sx h, beBytes_length]
  exact if_neg (by change ¬ (_ ∨ 3 * (fsz m z / 4) * 4 / 3 ≠ fsz m z); omega)

theorem fullSize_wf (chk : Bool) {m : I} {z : Sizage} (h : Enc m z) : fullSize chk m = .ok (fsz m z) := by
  have r := row_ok h.row
  have hlt := pow3 h.idx r.ms3
  have hcs := r.cs
  unfold fullSize fsz
  rw [h.row, Res.ok_bind]
  split
  · rfl
  · rename_i e
    rw [mulU32, if_pos (by omega), Res.ok_bind, addU32, if_pos (by omega), if_pos (by omega)]

/-- The ondex a parser reports for an encoding. -/
def seenOndex (m : I) (z : Sizage) : Nat := if current m.code then 0 else if z.os = 0 then m.index else m.ondex

theorem readOndex_ok {m : I} {z : Sizage} (h : Enc m z) (hcur : current m.code = true → z.os ≠ 0 → m.ondex = 0) :
    readOndex z m.code (b64Text (toBase 64 z.os m.ondex)) m.index = .ok (seenOndex m z) := by
  have r := row_ok h.row
  unfold readOndex seenOndex
  by_cases ho : z.os = 0
  · by_cases hc : current m.code = true <;> simp [ho, hc]
  · have hlt := pow3 (h.odx (by omega)) r.os3
    have e : b64ToU32 (b64Text (toBase 64 z.os m.ondex)) = .ok m.ondex := by
      rw [b64ToU32_text (Sextets.toBase _ _) (by rw [ofBase_toBase_of_lt (h.odx (by omega))]; omega),
        ofBase_toBase_of_lt (h.odx (by omega))]
    by_cases hc : current m.code = true
    · rw [if_pos hc, if_pos ho, e, Res.ok_bind, hcur hc ho, if_pos hc]; rfl
    · simp [hc, ho, e]

theorem exfil_text (chk : Bool) {m : I} {z : Sizage} (h : Enc m z)
    (hcur : current m.code = true → z.os ≠ 0 → m.ondex = 0) (t : Str) :
    exfil chk (b64Text (sx m z) ++ t) = .ok { m with ondex := seenOndex m z } := by
  have r := row_ok h.row
  have hf := h.frame
  rw [codeSx_length h.row] at hf
  have hb := hf.bits; have hle := hf.le; have hmod := hf.mod
  have hms := r.ms1
  have hlt := pow3 h.idx r.ms3
  have hA := (isB64_text (sx_sextets h)).ascii
  have hl : Str.len (b64Text (sx m z) ++ t) = fsz m z + Str.len t := by
    rw [Str.len_append, text_len (sx_sextets h), sx_length h]
  have hcA := r.b64.ascii
  have hiA : Ascii (b64Text (toBase 64 (z.ss - z.os) m.index)) := (isB64_text (Sextets.toBase _ _)).ascii
  have hoA : Ascii (b64Text (toBase 64 z.os m.ondex)) := (isB64_text (Sextets.toBase _ _)).ascii
  have hcoA : Ascii (b64Text (codeSx m z)) := (isB64_text (codeSx_sextets h.row)).ascii
  obtain ⟨c0, cr, hc0⟩ : ∃ c0 cr, m.code = c0 :: cr := by
    cases hm : m.code with
    | nil => have := r.len; have := r.hs1; rw [hm] at *; simp at *; omega
    | cons a b => exact ⟨a, b, rfl⟩
  have hhard : hardage c0 = .ok z.hs := by
    have := r.hard; rw [hc0] at this; simpa using this
  obtain ⟨q, hq⟩ : ∃ q, q = b64Text (sx m z) ++ t := ⟨_, rfl⟩
  have hqc : ∃ rest, q = c0 :: rest := by
    rw [hq, sx_text h, code_text h.row, hc0]; exact ⟨_, rfl⟩
  obtain ⟨rest, hqc⟩ := hqc
  have hs1 : q = m.code ++ (b64Text (toBase 64 (z.ss - z.os) m.index) ++ b64Text (toBase 64 z.os m.ondex) ++
      b64Text (toBase 64 (fsz m z - (z.hs + z.ss)) (beVal m.raw)) ++ t) := by
    rw [hq, sx_text h, code_text h.row]; simp only [List.append_assoc]
  have hs2 : q = m.code ++ b64Text (toBase 64 (z.ss - z.os) m.index) ++ (b64Text (toBase 64 z.os m.ondex) ++
      b64Text (toBase 64 (fsz m z - (z.hs + z.ss)) (beVal m.raw)) ++ t) := by
    rw [hs1]; simp only [List.append_assoc]
  have hs3 : q = (m.code ++ b64Text (toBase 64 (z.ss - z.os) m.index)) ++ b64Text (toBase 64 z.os m.ondex) ++
      (b64Text (toBase 64 (fsz m z - (z.hs + z.ss)) (beVal m.raw)) ++ t) := by
    rw [hs1]; simp only [List.append_assoc]
  have g1 : Str.sliceTo q z.hs = .ok m.code := by rw [hs1]; exact sliceTo_of_prefix hcA r.len.symm
  have g2 : Str.slice q z.hs (z.hs + (z.ss - z.os)) = .ok (b64Text (toBase 64 (z.ss - z.os) m.index)) := by
    rw [hs2]; exact slice_mid hcA hiA r.len.symm (by rw [r.len, b64Text_length, toBase_length])
  have g3 : Str.slice q (z.hs + (z.ss - z.os)) (z.hs + ((z.ss - z.os) + z.os)) =
      .ok (b64Text (toBase 64 z.os m.ondex)) := by
    rw [hs3]
    exact slice_mid (Ascii.append.mpr ⟨hcA, hiA⟩) hoA
      (by rw [List.length_append, r.len, b64Text_length, toBase_length])
      (by rw [List.length_append, r.len, b64Text_length, toBase_length, b64Text_length, toBase_length]; omega)
  have g4 : Str.sliceTo q (fsz m z) = .ok (b64Text (sx m z)) := by
    rw [hq]; exact sliceTo_of_prefix hA (by rw [b64Text_length, sx_length h])
  have g5 : Str.sliceFrom (b64Text (sx m z)) (z.hs + z.ss) =
      .ok (b64Text (toBase 64 (fsz m z - (z.hs + z.ss)) (beVal m.raw))) := by
    rw [sx_text h]; exact sliceFrom_of_prefix hcoA (by rw [b64Text_length, codeSx_length h.row])
  have hql : Str.len q = fsz m z + Str.len t := by rw [hq, hl]
  have hss : z.hs ≤ z.hs + z.ss := by omega
  rw [← hq]
  have key : exfil chk q = exfil chk (c0 :: rest) := by rw [hqc]
  rw [key]
  unfold exfil
  simp only
  rw [← hqc, hhard, Res.ok_bind, if_neg (by omega), g1, Res.ok_bind, h.row, Res.ok_bind, if_neg (by omega), g2,
    Res.ok_bind, b64ToU32_text (Sextets.toBase _ _) (by rw [ofBase_toBase_of_lt h.idx]; omega), Res.ok_bind,
    ofBase_toBase_of_lt h.idx, g3, Res.ok_bind, readOndex_ok h hcur, Res.ok_bind, sizeOf_ok chk _ _ h.row h.idx,
    Res.ok_bind]
  change (if Str.len q < fsz m z then _ else (do let trim ← Str.sliceTo q (fsz m z); _)) = _
  rw [if_neg (by omega), g4, Res.ok_bind, g5, Res.ok_bind, h.ls0]
  by_cases hp : (z.hs + z.ss) % 4 = 0
  · have hd := frame_decode_pre hf
    rw [hp, List.replicate_zero, List.nil_append, List.replicate_zero, List.nil_append] at hd
    rw [if_neg (by simp [hp]), hd, Res.ok_bind, hp, Bytes.sliceTo, if_pos (Nat.zero_le _), Res.ok_bind]
    simp [beVal_nil, Bytes.sliceFrom]
  · rw [if_pos hp, frame_decode_pre hf, Res.ok_bind, Bytes.sliceTo, if_pos (by simp), Res.ok_bind,
      List.take_left' (by simp)]
    have e : beVal (List.replicate ((z.hs + z.ss) % 4) (0 : UInt8)) = 0 := by
      have := Matter.beVal_lead ((z.hs + z.ss) % 4) []
      rwa [List.append_nil] at this
    rw [e, Nat.zero_and, if_neg (by simp), Bytes.sliceFrom, if_pos (by simp), Res.ok_bind,
      List.drop_left' (by simp)]

end Keride.Indexer
