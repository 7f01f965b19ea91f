/-
A message that was read can be read again from its bytes followed by anything.
-/
import Verif.Props.Sadder
import Verif.Lemmas.JsonSize

namespace Keride

open Matter Saider

/-- The text of a digest has at least 44 characters. -/
theorem digest_chars {s : Str} {m : M} (h : Matter.newWithQb64 s = .ok m) (hc : m.code ∈ digestCodes) : 44 ≤ s.length := by
  obtain ⟨p⟩ := exfil_ok h
  have key : ∀ c ∈ digestCodes, ∀ z, sizage c = .ok z → z.fs ≠ u32Max ∧ 44 ≤ z.fs ∧ z.hs + z.ss = c.length := by
    intro c hc z hz
    have : ∀ c ∈ digestCodes, (sizage c >>= fun z => .ok (decide (z.fs ≠ u32Max ∧ 44 ≤ z.fs ∧ z.hs + z.ss = c.length))) = .ok true := by
      decide +kernel
    have := this c hc
    rw [hz, Res.ok_bind] at this
    simpa using this
  obtain ⟨h1, h2, h3⟩ := key _ hc _ p.row
  obtain ⟨e1, -, e3⟩ := p.fixed h1
  have dec : ∀ {t : Str} {b : Bytes}, b64Decode t = .ok b → Ascii t := by
    intro t b h
    rcases (b64Decode_ok h).2 with ⟨h, -⟩ | ⟨t, rfl, h, -⟩ | ⟨t, rfl, h, -⟩
    · exact h.ascii
    · exact Ascii.append.mpr ⟨h.ascii, by decide⟩
    · exact Ascii.append.mpr ⟨h.ascii, by decide⟩
  have hb : Ascii p.body := by
    by_cases hp : (p.z.hs + p.z.ss) % 4 = 0
    · exact dec (p.lead hp).1
    · exact (Ascii.append.mp (dec (p.pre hp).1)).2
  have := p.len_body
  rw [hb.len, e3] at this
  rw [p.split]
  simp only [List.length_append]
  omega

theorem length_pos_len {s : Str} (h : s ≠ []) : 0 < s.len := by
  cases s with
  | nil => exact absurd rfl h
  | cons c s =>
    rw [Str.len]
    have := c.utf8Size_pos
    omega

/-- The version string is found within the first 29 bytes, whatever follows them. -/
theorem sniff_prefix {raw : Bytes} {info : VersionInfo} (h : sniff raw = .ok info) {t : Str} {rest : Bytes} (hr : raw = toUtf8 t ++ rest)
    (hl : 29 ≤ (toUtf8 t).length) (g : Str) : sniff (toUtf8 (t ++ g)) = .ok info := by
  unfold sniff at h ⊢
  split at h
  · cases h
  rename_i h29
  obtain ⟨text, htext, h⟩ := Res.bind_eq_ok.mp h
  rw [hr, fromUtf8_append] at htext
  obtain ⟨u, -, htext⟩ := Res.bind_eq_ok.mp htext
  cases htext
  cases hf : findVs (t ++ u) with
  | none => rw [hf] at h; cases h
  | some p =>
    obtain ⟨a, b⟩ := p
    rw [hf] at h
    dsimp only at h
    split at h
    · cases h
    rename_i h12
    obtain ⟨e1, e2, e3⟩ := findVs_some.mp hf
    have h17 := vsAt_len e2
    have hch : ∀ c ∈ b.take 17, c.toNat < 128 := fun c hc => (vs_ascii (vsAt_chars e2 c hc)).2.2.2
    have hlen : a.length + 17 ≤ t.length := by
      by_contra hlt
      have e4 : a ++ b.take 17 = t ++ u.take (a.length + 17 - t.length) := by
        have : (a ++ b).take (a.length + 17) = (t ++ u).take (a.length + 17) := by rw [e1]
        rw [List.take_append, List.take_append, List.take_of_length_le (by omega), List.take_of_length_le (l := t) (by omega)] at this
        simpa using this
      have e5 := congrArg Str.len e4
      rw [len_append, len_append, ascii_len hch, List.length_take] at e5
      have e6 : u.take (a.length + 17 - t.length) ≠ [] := by
        intro hn
        have := congrArg List.length e4
        rw [hn] at this
        simp at this
        omega
      have := length_pos_len e6
      rw [toUtf8_length] at hl
      omega
    have e7 : t = a ++ t.drop a.length := by
      have : (t ++ u).take a.length = a := by rw [e1]; simp
      rw [List.take_append_of_le_length (by omega)] at this
      conv_lhs => rw [← List.take_append_drop a.length t, this]
    have e8 : (t.drop a.length).take 17 = b.take 17 := by
      have : (t ++ u).drop a.length = b := by rw [e1]; simp
      rw [← this, List.drop_append_of_le_length (by omega), List.take_append_of_le_length (by rw [List.length_drop]; omega)]
    have e9 : findVs t = some (a, t.drop a.length) := by
      refine findVs_some.mpr ⟨e7, by rw [vsAt_congr e8]; exact e2, ?_⟩
      intro i hi
      rw [← e3 i hi]
      apply vsAt_congr
      rw [List.drop_append_of_le_length (by omega), List.take_append_of_le_length (by rw [List.length_drop]; omega)]
    have e10 := findVs_append e9 g
    rw [if_neg (by rw [toUtf8_append, List.length_append]; omega), fromUtf8_toUtf8, Res.ok_bind, e10]
    dsimp only
    rw [if_neg h12, List.take_append_of_le_length (by rw [List.length_drop]; omega), e8]
    exact h

theorem populateFromRaw_again {fl : Str → Option Str} {code : Str} {raw : Bytes} {s : Sad} (h : Sadder.populateFromRaw fl code raw = .ok s)
    (g : Str) : ∃ t, s.raw = toUtf8 t ∧ fromUtf8 s.raw = .ok t ∧ s.size = s.raw.length ∧ Sadder.populateFromRaw fl code (toUtf8 (t ++ g)) = .ok s := by
  obtain ⟨h1, h2, ⟨t, h3, h4⟩, -, -, d, h7, h8, h9⟩ := Props.C39_partial.raw_fields h
  have hk : ∃ o, s.ked = .obj o := by
    cases hk : s.ked <;> rw [hk] at h7 <;> first | cases h7 | exact ⟨_, rfl⟩
  have hsz : s.size = s.raw.length := by rw [h2, List.length_take]; omega
  obtain ⟨o, ho⟩ := hk
  refine ⟨t, h3, by rw [h3, fromUtf8_toUtf8], hsz, ?_⟩
  have h44 : 44 ≤ t.length := by
    rw [ho] at h4 h7
    rw [field_find] at h7
    have e1 := jsonRead_text h4 h7
    unfold Sadder.populateFromRaw at h
    obtain ⟨r, -, h⟩ := Res.bind_eq_ok.mp h
    obtain ⟨b, -, h⟩ := Res.bind_eq_ok.mp h
    obtain ⟨o', t', m', e, hf, hm, hc, rfl⟩ := finish_sad.mp h
    have := saiderOf_ok hm
    exact le_trans (digest_chars h8 this.2) e1
  have h29 : 29 ≤ (toUtf8 t).length := by
    rw [toUtf8_length]
    have := length_le_len t
    omega
  unfold Sadder.populateFromRaw Sadder.inhale at h ⊢
  obtain ⟨r, hr, hh⟩ := Res.bind_eq_ok.mp h
  obtain ⟨b, hb, hh⟩ := Res.bind_eq_ok.mp hh
  obtain ⟨r', hr', hr⟩ := Res.bind_eq_ok.mp hr
  split at hr
  · cases hr
  rename_i hver
  obtain ⟨ked, hked, hr⟩ := Res.bind_eq_ok.mp hr
  cases hr
  dsimp only at hb hh
  have hb' : b = toUtf8 t ∧ r'.size = (toUtf8 t).length := by
    obtain ⟨o', t', m', e, hf, hm, hc, rfl⟩ := finish_sad.mp hh
    dsimp only at h3 hsz
    subst h3
    exact ⟨rfl, hsz⟩
  obtain ⟨rfl, hsz'⟩ := hb'
  have hsn := sniff_prefix hr' (t := t) (rest := raw.drop s.size) (by rw [← h3, h2, List.take_append_drop]) h29 g
  have hsl : Bytes.sliceTo (toUtf8 (t ++ g)) r'.size = .ok (toUtf8 t) := by
    unfold Bytes.sliceTo
    rw [if_pos (by rw [toUtf8_append, List.length_append]; omega), toUtf8_append, hsz', List.take_left]
  rw [hsn, Res.ok_bind, if_neg hver]
  have hld : loads fl (toUtf8 (t ++ g)) (some r'.size) (some r'.kind) = .ok ked := by
    rw [← hked]
    unfold loads
    split
    · dsimp only
      rw [hsl, hb]
    · rfl
  rw [hld, Res.ok_bind, Res.ok_bind]
  dsimp only
  rw [hsl, Res.ok_bind]
  exact hh

theorem serder_again {fl : Str → Option Str} {raw : Bytes} {s : Sad} (h : Serder.newWithRaw fl raw = .ok s) (g : Str) :
    ∃ t, s.raw = toUtf8 t ∧ fromUtf8 s.raw = .ok t ∧ s.size = s.raw.length ∧ Serder.newWithRaw fl (toUtf8 (t ++ g)) = .ok s := by
  obtain ⟨h1, h2⟩ := Props.serder_raw.mp (h : Serder.new fl none (some raw) none none none = .ok s)
  obtain ⟨t, e1, e2, e3, e4⟩ := populateFromRaw_again h1 g
  exact ⟨t, e1, e2, e3, Props.serder_raw.mpr ⟨e4, h2⟩⟩

theorem creder_again {fl : Str → Option Str} {raw : Bytes} {s : Sad} (h : Creder.newWithRaw fl raw = .ok s) (g : Str) :
    ∃ t, s.raw = toUtf8 t ∧ fromUtf8 s.raw = .ok t ∧ s.size = s.raw.length ∧ Creder.newWithRaw fl (toUtf8 (t ++ g)) = .ok s := by
  obtain ⟨h1, h2⟩ := Props.creder_raw.mp (h : Creder.new fl none (some raw) none none none = .ok s)
  obtain ⟨t, e1, e2, e3, e4⟩ := populateFromRaw_again h1 g
  exact ⟨t, e1, e2, e3, Props.creder_raw.mpr ⟨e4, h2⟩⟩

end Keride
