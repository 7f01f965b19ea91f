import Verif.Model.Base64
import Verif.Lemmas.Radix

namespace Keride

/-! ### The alphabet -/

theorem alphabet_table : ∀ i < 64, b64Alphabet.idxOf? (b64Chr i) = some i ∧
    b64Alphabet[i]? = some (b64Chr i) ∧ (b64Chr i).utf8Size = 1 ∧ b64Chr i ≠ '=' ∧
    b64Chr i ∈ b64Alphabet := by
  decide +kernel

theorem alphabet_length : b64Alphabet.length = 64 := by decide

theorem idxOf_chr {i : Nat} (h : i < 64) : b64Alphabet.idxOf? (b64Chr i) = some i :=
  (alphabet_table i h).1

theorem get_chr {i : Nat} (h : i < 64) : b64Alphabet[i]? = some (b64Chr i) := (alphabet_table i h).2.1

theorem utf8Size_chr {i : Nat} (h : i < 64) : (b64Chr i).utf8Size = 1 := (alphabet_table i h).2.2.1

theorem chr_ne_eq {i : Nat} (h : i < 64) : b64Chr i ≠ '=' := (alphabet_table i h).2.2.2.1

theorem chr_mem {i : Nat} (h : i < 64) : b64Chr i ∈ b64Alphabet := (alphabet_table i h).2.2.2.2

theorem chr_inj {i j : Nat} (hi : i < 64) (hj : j < 64) (h : b64Chr i = b64Chr j) : i = j := by
  have h1 := idxOf_chr hi
  rw [h, idxOf_chr hj] at h1
  exact (Option.some.inj h1).symm

theorem charToIndex_chr {i : Nat} (h : i < 64) : b64CharToIndex (b64Chr i) = .ok i := by
  simp [b64CharToIndex, idxOf_chr h]

theorem indexToChar_lt {i : Nat} (h : i < 64) : b64IndexToChar i = .ok (b64Chr i) := by
  simp [b64IndexToChar, get_chr h]

theorem mem_alphabet {c : Char} (h : c ∈ b64Alphabet) : ∃ i < 64, c = b64Chr i := by
  obtain ⟨i, hi, rfl⟩ := List.getElem_of_mem h
  rw [alphabet_length] at hi
  refine ⟨i, hi, ?_⟩
  have := get_chr hi
  rw [List.getElem?_eq_getElem (by rw [alphabet_length]; exact hi)] at this
  exact Option.some.inj this

theorem idxOf?_some {c : Char} {i : Nat} (h : b64Alphabet.idxOf? c = some i) : i < 64 ∧ c = b64Chr i := by
  have hm : c ∈ b64Alphabet := by
    by_contra hc
    have : b64Alphabet.idxOf? c = none := by
      rw [List.idxOf?_eq_none_iff]; exact hc
    rw [this] at h; exact absurd h (by simp)
  obtain ⟨j, hj, rfl⟩ := mem_alphabet hm
  rw [idxOf_chr hj] at h
  obtain rfl := Option.some.inj h
  exact ⟨hj, rfl⟩

theorem idxOf?_none {c : Char} : b64Alphabet.idxOf? c = none ↔ c ∉ b64Alphabet := by
  rw [List.idxOf?_eq_none_iff]

theorem charToIndex_ok {c : Char} {i : Nat} : b64CharToIndex c = .ok i ↔ i < 64 ∧ c = b64Chr i := by
  constructor
  · intro h
    exact idxOf?_some (Res.ofOption_eq_ok.mp h)
  · rintro ⟨h, rfl⟩
    exact charToIndex_chr h

theorem charToIndex_of_not_mem {c : Char} (h : c ∉ b64Alphabet) :
    b64CharToIndex c = .err .invalidBase64Character := by
  simp [b64CharToIndex, idxOf?_none.mpr h]

/-! ### Base64 strings as sextet lists -/

/-- Every character is from the Base64 URL-safe alphabet. -/
def IsB64 (s : Str) : Prop := ∀ c ∈ s, c ∈ b64Alphabet

instance (s : Str) : Decidable (IsB64 s) := inferInstanceAs (Decidable (∀ c ∈ s, c ∈ b64Alphabet))

/-- Every digit is a sextet. -/
def Sextets (ds : List Nat) : Prop := ∀ d ∈ ds, d < 64

theorem Sextets.append {l m : List Nat} : Sextets (l ++ m) ↔ Sextets l ∧ Sextets m := by
  simp only [Sextets, List.mem_append]
  exact ⟨fun h => ⟨fun d hd => h d (.inl hd), fun d hd => h d (.inr hd)⟩,
    fun h d hd => hd.elim (h.1 d) (h.2 d)⟩

theorem Sextets.cons {d : Nat} {l : List Nat} : Sextets (d :: l) ↔ d < 64 ∧ Sextets l := by
  simp [Sextets]

theorem Sextets.nil : Sextets [] := by simp [Sextets]

theorem Sextets.toBase (len n : Nat) : Sextets (Keride.toBase 64 len n) := toBase_lt (by decide) _ _

theorem Sextets.take {l : List Nat} (h : Sextets l) (k : Nat) : Sextets (l.take k) :=
  fun d hd => h d (List.mem_of_mem_take hd)

theorem Sextets.drop {l : List Nat} (h : Sextets l) (k : Nat) : Sextets (l.drop k) :=
  fun d hd => h d (List.mem_of_mem_drop hd)

theorem Sextets.replicate_zero (k : Nat) : Sextets (List.replicate k 0) := by
  intro d hd
  rw [List.eq_of_mem_replicate hd]; decide

/-- The text of a sextet list. -/
def b64Text (ds : List Nat) : Str := ds.map b64Chr

@[simp] theorem b64Text_length (ds : List Nat) : (b64Text ds).length = ds.length := by simp [b64Text]

@[simp] theorem b64Text_nil : b64Text [] = [] := rfl

theorem b64Text_append (l m : List Nat) : b64Text (l ++ m) = b64Text l ++ b64Text m := by
  simp [b64Text]

theorem b64Text_take (l : List Nat) (k : Nat) : (b64Text l).take k = b64Text (l.take k) := by
  simp [b64Text, List.map_take]

theorem b64Text_drop (l : List Nat) (k : Nat) : (b64Text l).drop k = b64Text (l.drop k) := by
  simp [b64Text, List.map_drop]

theorem b64Text_inj {l m : List Nat} (hl : Sextets l) (hm : Sextets m) (h : b64Text l = b64Text m) :
    l = m := by
  induction l generalizing m with
  | nil => cases m with
    | nil => rfl
    | cons => simp [b64Text] at h
  | cons a l ih => cases m with
    | nil => simp [b64Text] at h
    | cons b m =>
      simp only [b64Text, List.map_cons, List.cons.injEq] at h
      rw [Sextets.cons] at hl hm
      rw [chr_inj hl.1 hm.1 h.1, ih hl.2 hm.2 h.2]

theorem isB64_iff {s : Str} : IsB64 s ↔ ∃ ds, Sextets ds ∧ s = b64Text ds := by
  constructor
  · intro h
    induction s with
    | nil => exact ⟨[], Sextets.nil, rfl⟩
    | cons c s ih =>
      obtain ⟨ds, hds, rfl⟩ := ih (fun x hx => h x (List.mem_cons_of_mem _ hx))
      obtain ⟨i, hi, rfl⟩ := mem_alphabet (h c List.mem_cons_self)
      exact ⟨i :: ds, Sextets.cons.mpr ⟨hi, hds⟩, rfl⟩
  · rintro ⟨ds, hds, rfl⟩ c hc
    obtain ⟨d, hd, rfl⟩ := List.mem_map.mp hc
    exact chr_mem (hds d hd)

theorem isB64_text {ds : List Nat} (h : Sextets ds) : IsB64 (b64Text ds) := isB64_iff.mpr ⟨ds, h, rfl⟩

theorem IsB64.take {s : Str} (h : IsB64 s) (k : Nat) : IsB64 (s.take k) :=
  fun c hc => h c (List.mem_of_mem_take hc)

theorem IsB64.drop {s : Str} (h : IsB64 s) (k : Nat) : IsB64 (s.drop k) :=
  fun c hc => h c (List.mem_of_mem_drop hc)

theorem IsB64.append {s t : Str} : IsB64 (s ++ t) ↔ IsB64 s ∧ IsB64 t := by
  simp only [IsB64, List.mem_append]
  exact ⟨fun h => ⟨fun d hd => h d (.inl hd), fun d hd => h d (.inr hd)⟩,
    fun h d hd => hd.elim (h.1 d) (h.2 d)⟩

/-! ### ASCII strings: byte offsets are character offsets -/

/-- All characters take one byte. -/
def Ascii (s : Str) : Prop := ∀ c ∈ s, c.utf8Size = 1

instance (s : Str) : Decidable (Ascii s) := inferInstanceAs (Decidable (∀ c ∈ s, c.utf8Size = 1))

theorem IsB64.ascii {s : Str} (h : IsB64 s) : Ascii s := by
  intro c hc
  obtain ⟨i, hi, rfl⟩ := mem_alphabet (h c hc)
  exact utf8Size_chr hi

theorem Ascii.append {s t : Str} : Ascii (s ++ t) ↔ Ascii s ∧ Ascii t := by
  simp only [Ascii, List.mem_append]
  exact ⟨fun h => ⟨fun d hd => h d (.inl hd), fun d hd => h d (.inr hd)⟩,
    fun h d hd => hd.elim (h.1 d) (h.2 d)⟩

theorem Ascii.take {s : Str} (h : Ascii s) (k : Nat) : Ascii (s.take k) :=
  fun c hc => h c (List.mem_of_mem_take hc)

theorem Ascii.drop {s : Str} (h : Ascii s) (k : Nat) : Ascii (s.drop k) :=
  fun c hc => h c (List.mem_of_mem_drop hc)

theorem Str.len_append (s t : Str) : Str.len (s ++ t) = Str.len s + Str.len t := by
  induction s with
  | nil => simp [Str.len]
  | cons c s ih => simp [Str.len, ih, Nat.add_assoc]

theorem Ascii.len {s : Str} (h : Ascii s) : Str.len s = s.length := by
  induction s with
  | nil => rfl
  | cons c s ih =>
    rw [Str.len, ih (fun x hx => h x (List.mem_cons_of_mem _ hx)), h c List.mem_cons_self,
      List.length_cons, Nat.add_comm]

theorem length_le_len (s : Str) : s.length ≤ Str.len s := by
  induction s with
  | nil => simp [Str.len]
  | cons c s ih =>
    have := c.utf8Size_pos
    simp only [Str.len, List.length_cons]; omega

theorem sliceTo_append {s t : Str} (h : Ascii s) : Str.sliceTo (s ++ t) s.length = .ok s := by
  induction s with
  | nil => simp [Str.sliceTo]
  | cons c s ih =>
    have hc := h c List.mem_cons_self
    simp only [List.cons_append, List.length_cons, Str.sliceTo, hc]
    rw [if_pos (by omega), Nat.add_sub_cancel, ih (fun x hx => h x (List.mem_cons_of_mem _ hx))]

theorem sliceFrom_append {s t : Str} (h : Ascii s) : Str.sliceFrom (s ++ t) s.length = .ok t := by
  induction s with
  | nil => simp [Str.sliceFrom]
  | cons c s ih =>
    have hc := h c List.mem_cons_self
    simp only [List.cons_append, List.length_cons, Str.sliceFrom, hc]
    rw [if_pos (by omega), Nat.add_sub_cancel, ih (fun x hx => h x (List.mem_cons_of_mem _ hx))]

theorem sliceTo_of_prefix {s t : Str} {n : Nat} (h : Ascii s) (hn : n = s.length) :
    Str.sliceTo (s ++ t) n = .ok s := hn ▸ sliceTo_append h

theorem sliceFrom_of_prefix {s t : Str} {n : Nat} (h : Ascii s) (hn : n = s.length) :
    Str.sliceFrom (s ++ t) n = .ok t := hn ▸ sliceFrom_append h

/-- A successful `&s[..n]` splits `s`. -/
theorem sliceTo_ok {s r : Str} {n : Nat} (h : Str.sliceTo s n = .ok r) :
    ∃ t, s = r ++ t ∧ Str.len r = n := by
  induction s generalizing n r with
  | nil =>
    cases n with
    | zero => simp [Str.sliceTo] at h; subst h; exact ⟨[], rfl, rfl⟩
    | succ n => simp [Str.sliceTo] at h
  | cons c s ih =>
    cases n with
    | zero => simp [Str.sliceTo] at h; subst h; exact ⟨_, rfl, rfl⟩
    | succ n =>
      simp only [Str.sliceTo] at h
      split at h
      · rename_i hc
        split at h <;> simp at h
        rename_i r' hr'
        obtain ⟨t, rfl, hlen⟩ := ih hr'
        subst h
        refine ⟨t, rfl, ?_⟩
        simp only [Str.len, hlen]; omega
      · simp at h

theorem sliceFrom_ok {s r : Str} {n : Nat} (h : Str.sliceFrom s n = .ok r) :
    ∃ t, s = t ++ r ∧ Str.len t = n := by
  induction s generalizing n with
  | nil =>
    cases n with
    | zero => simp [Str.sliceFrom] at h; subst h; exact ⟨[], rfl, rfl⟩
    | succ n => simp [Str.sliceFrom] at h
  | cons c s ih =>
    cases n with
    | zero => simp [Str.sliceFrom] at h; subst h; exact ⟨[], rfl, rfl⟩
    | succ n =>
      simp only [Str.sliceFrom] at h
      split at h
      · rename_i hc
        obtain ⟨t, rfl, hlen⟩ := ih h
        refine ⟨c :: t, rfl, ?_⟩
        simp only [Str.len, hlen]; omega
      · simp at h

theorem sliceTo_ne_err {s : Str} {n : Nat} {e : Err} : Str.sliceTo s n ≠ .err e := by
  induction s generalizing n with
  | nil => cases n <;> simp [Str.sliceTo]
  | cons c s ih =>
    cases n with
    | zero => simp [Str.sliceTo]
    | succ n =>
      simp only [Str.sliceTo]
      split
      · split <;> simp
        rename_i e' he'
        rintro rfl
        exact ih he'
      · simp

/-- Slicing at the byte length of a prefix. -/
theorem sliceTo_len (s t : Str) : Str.sliceTo (s ++ t) (Str.len s) = .ok s := by
  induction s with
  | nil => simp [Str.sliceTo, Str.len]
  | cons c s ih =>
    have hc := c.utf8Size_pos
    obtain ⟨k, hk⟩ : ∃ k, Str.len (c :: s) = k + 1 := ⟨Str.len (c :: s) - 1, by
      simp only [Str.len]; omega⟩
    have h2 : k + 1 - c.utf8Size = Str.len s := by rw [← hk]; simp [Str.len]
    have h3 : c.utf8Size ≤ k + 1 := by rw [← hk]; simp [Str.len]
    rw [hk, List.cons_append, Str.sliceTo, if_pos h3, h2, ih]

theorem sliceFrom_len (s t : Str) : Str.sliceFrom (s ++ t) (Str.len s) = .ok t := by
  induction s with
  | nil => simp [Str.sliceFrom, Str.len]
  | cons c s ih =>
    have hc := c.utf8Size_pos
    obtain ⟨k, hk⟩ : ∃ k, Str.len (c :: s) = k + 1 := ⟨Str.len (c :: s) - 1, by
      simp only [Str.len]; omega⟩
    have h2 : k + 1 - c.utf8Size = Str.len s := by rw [← hk]; simp [Str.len]
    have h3 : c.utf8Size ≤ k + 1 := by rw [← hk]; simp [Str.len]
    rw [hk, List.cons_append, Str.sliceFrom, if_pos h3, h2, ih]

/-- On ASCII text `&s[..n]` within range is `take`. -/
theorem sliceTo_ascii {s : Str} {n : Nat} (h : Ascii s) (hn : n ≤ s.length) :
    Str.sliceTo s n = .ok (s.take n) := by
  have : s = s.take n ++ s.drop n := (List.take_append_drop n s).symm
  conv_lhs => rw [this]
  exact sliceTo_of_prefix (fun c hc => h c (List.mem_of_mem_take hc)) (by simp [hn])

theorem sliceFrom_ascii {s : Str} {n : Nat} (h : Ascii s) (hn : n ≤ s.length) :
    Str.sliceFrom s n = .ok (s.drop n) := by
  have : s = s.take n ++ s.drop n := (List.take_append_drop n s).symm
  conv_lhs => rw [this]
  exact sliceFrom_of_prefix (fun c hc => h c (List.mem_of_mem_take hc)) (by simp [hn])

/-! ### Bytes as numbers -/

theorem beVal_nil : beVal [] = 0 := rfl

theorem toNat_lt_256 (bs : Bytes) : ∀ d ∈ bs.map UInt8.toNat, d < 256 := by
  intro d hd
  obtain ⟨b, -, rfl⟩ := List.mem_map.mp hd
  exact b.toNat_lt

theorem beVal_lt (bs : Bytes) : beVal bs < 256 ^ bs.length := by
  have := ofBase_lt 256 (bs.map UInt8.toNat) (toNat_lt_256 bs)
  simpa [beVal] using this

theorem beVal_append (a b : Bytes) : beVal (a ++ b) = beVal a * 256 ^ b.length + beVal b := by
  simp [beVal, ofBase_append]

theorem beVal_replicate_zero (k : Nat) : beVal (List.replicate k 0) = 0 := by
  simp [beVal, ofBase_replicate_zero]

@[simp] theorem beBytes_length (len n : Nat) : (beBytes len n).length = len := by simp [beBytes]

theorem map_ofNat_toNat {ds : List Nat} (h : ∀ d ∈ ds, d < 256) :
    (ds.map UInt8.ofNat).map UInt8.toNat = ds := by
  rw [List.map_map]
  conv_rhs => rw [← List.map_id ds]
  apply List.map_congr_left
  intro d hd
  simp [UInt8.toNat_ofNat', Nat.mod_eq_of_lt (h d hd)]

theorem beVal_beBytes (len n : Nat) : beVal (beBytes len n) = n % 256 ^ len := by
  unfold beVal beBytes
  rw [map_ofNat_toNat (toBase_lt (by decide) _ _), ofBase_toBase]

theorem beBytes_beVal (bs : Bytes) : beBytes bs.length (beVal bs) = bs := by
  unfold beVal beBytes
  have := toBase_ofBase (bs.map UInt8.toNat) (toNat_lt_256 bs)
  rw [List.length_map] at this
  rw [this, List.map_map]
  conv_rhs => rw [← List.map_id bs]
  apply List.map_congr_left
  intro d _
  simp

theorem beBytes_beVal' {bs : Bytes} {k : Nat} (h : bs.length = k) : beBytes k (beVal bs) = bs := by
  subst h; exact beBytes_beVal bs

theorem beVal_inj {a b : Bytes} (hl : a.length = b.length) (h : beVal a = beVal b) : a = b := by
  rw [← beBytes_beVal a, ← beBytes_beVal b, hl, h]

theorem beBytes_mul_add (i j m v : Nat) (hv : v < 256 ^ j) :
    beBytes (i + j) (m * 256 ^ j + v) = beBytes i m ++ beBytes j v := by
  simp [beBytes, toBase_mul_add (b := 256) (by decide) i j m v hv]

theorem beBytes_zero (k : Nat) : beBytes k 0 = List.replicate k 0 := by
  simp [beBytes, toBase_zero]

theorem beBytes_drop (i j n : Nat) : (beBytes (i + j) n).drop i = beBytes j n := by
  simp [beBytes, ← List.map_drop, toBase_drop]

theorem beBytes_take (i j n : Nat) : (beBytes (i + j) n).take i = beBytes i (n / 256 ^ j) := by
  simp [beBytes, ← List.map_take, toBase_take]

theorem beVal_take (bs : Bytes) (k : Nat) :
    beVal (bs.take k) = beVal bs / 256 ^ (bs.length - k) := by
  have h1 : beVal bs = beVal (bs.take k) * 256 ^ (bs.length - k) + beVal (bs.drop k) := by
    conv_lhs => rw [← List.take_append_drop k bs]
    rw [beVal_append]; simp
  have h2 : beVal (bs.drop k) < 256 ^ (bs.length - k) := by
    have := beVal_lt (bs.drop k); simpa using this
  rw [h1, Nat.mul_comm, Nat.mul_add_div (Nat.pow_pos (by decide)), Nat.div_eq_of_lt h2, Nat.add_zero]

/-! ### Integer text conversion -/

theorem two_pow_w {w : Nat} (hw : 6 ≤ w) : 2 ^ w = 64 * 2 ^ (w - 6) := by
  obtain ⟨k, rfl⟩ := Nat.exists_eq_add_of_le hw
  rw [Nat.pow_add, Nat.add_sub_cancel_left]

theorem b64ToUAux_text {w : Nat} (hw : 6 ≤ w) (ds : List Nat) (h : Sextets ds) (out : Nat)
    (ho : out < 2 ^ w) :
    b64ToUAux w out (b64Text ds) = .ok ((out * 64 ^ ds.length + ofBase 64 ds) % 2 ^ w) := by
  induction ds generalizing out with
  | nil => simp [b64ToUAux, Nat.mod_eq_of_lt ho]
  | cons d ds ih =>
    rw [Sextets.cons] at h
    have hstep : out * 64 % 2 ^ w + d = (out * 64 + d) % 2 ^ w := by
      rw [two_pow_w hw, Nat.mul_comm out 64, Nat.mul_mod_mul_left]
      have hlt : out % 2 ^ (w - 6) < 2 ^ (w - 6) := Nat.mod_lt _ (Nat.pow_pos (by decide))
      have : (64 * out + d) = 64 * (out % 2 ^ (w - 6)) + d + 64 * 2 ^ (w - 6) * (out / 2 ^ (w - 6)) := by
        conv_lhs => rw [← Nat.mod_add_div out (2 ^ (w - 6))]
        ring
      have hsm : 64 * (out % 2 ^ (w - 6)) + d < 64 * 2 ^ (w - 6) := by
        have : 64 * (out % 2 ^ (w - 6) + 1) ≤ 64 * 2 ^ (w - 6) := Nat.mul_le_mul_left _ hlt
        omega
      rw [this, Nat.add_mul_mod_self_left, Nat.mod_eq_of_lt hsm]
    have hlt : (out * 64 + d) % 2 ^ w < 2 ^ w := Nat.mod_lt _ (Nat.pow_pos (by decide))
    show (b64CharToIndex (b64Chr d) >>= fun i => b64ToUAux w (out * 64 % 2 ^ w + i) (b64Text ds)) = _
    rw [charToIndex_chr h.1, Res.ok_bind, hstep, ih h.2 _ hlt, ofBase_cons, List.length_cons]
    congr 1
    rw [Nat.add_mod, Nat.mul_mod, Nat.mod_mod, ← Nat.mul_mod, ← Nat.add_mod]
    congr 1
    ring

theorem b64ToUAux_ok {w : Nat} {s : Str} {out v : Nat} (h : b64ToUAux w out s = .ok v) : IsB64 s := by
  induction s generalizing out with
  | nil => intro c hc; simp at hc
  | cons c s ih =>
    rw [b64ToUAux, Res.bind_eq_ok] at h
    obtain ⟨i, hi, h⟩ := h
    intro x hx
    rcases List.mem_cons.mp hx with rfl | hx
    · obtain ⟨hi', rfl⟩ := charToIndex_ok.mp hi
      exact chr_mem hi'
    · exact ih h x hx

theorem b64ToUAux_not {w : Nat} {s : Str} {out : Nat} (h : ¬ IsB64 s) :
    b64ToUAux w out s = .err .invalidBase64Character := by
  induction s generalizing out with
  | nil => exact absurd (fun c hc => by simp at hc) h
  | cons c s ih =>
    rw [b64ToUAux]
    by_cases hc : c ∈ b64Alphabet
    · obtain ⟨i, hi, rfl⟩ := mem_alphabet hc
      rw [charToIndex_chr hi, Res.ok_bind]
      apply ih
      intro hs
      apply h
      intro x hx
      rcases List.mem_cons.mp hx with rfl | hx
      · exact hc
      · exact hs x hx
    · rw [charToIndex_of_not_mem hc, Res.err_bind]

theorem b64ToU32_text {ds : List Nat} (h : Sextets ds) (hv : ofBase 64 ds < 2 ^ 32) :
    b64ToU32 (b64Text ds) = .ok (ofBase 64 ds) := by
  rw [b64ToU32, b64ToUAux_text (by decide) ds h 0 (by decide)]
  rw [Nat.zero_mul, Nat.zero_add, Nat.mod_eq_of_lt hv]

theorem b64ToU64_text {ds : List Nat} (h : Sextets ds) (hv : ofBase 64 ds < 2 ^ 64) :
    b64ToU64 (b64Text ds) = .ok (ofBase 64 ds) := by
  rw [b64ToU64, b64ToUAux_text (by decide) ds h 0 (by decide)]
  rw [Nat.zero_mul, Nat.zero_add, Nat.mod_eq_of_lt hv]

theorem ofBase_sextets_lt {ds : List Nat} (h : Sextets ds) {k : Nat} (hk : ds.length ≤ k) :
    ofBase 64 ds < 64 ^ k :=
  Nat.lt_of_lt_of_le (ofBase_lt 64 ds h) (Nat.pow_le_pow_right (by decide) hk)

theorem uToB64Loop_spec {n L : Nat} (hn : n ≤ 64 ^ L) (fuel : Nat) :
    ∀ (j x : Nat) (out : Str), x < 64 ^ fuel → out.length ≤ L → x < 64 ^ (L - out.length) →
      ∃ r, uToB64Loop n L fuel j x out = .ok r ∧
        List.replicate (L - r.length) 'A' ++ r = b64Text (toBase 64 (L - out.length) x) ++ out := by
  have h0 : b64Chr 0 = 'A' := by decide
  induction fuel with
  | zero =>
    intro j x out hx ho hx2
    have : x = 0 := by simpa using hx
    subst this
    refine ⟨out, rfl, ?_⟩
    simp [toBase_zero, b64Text, h0]
  | succ fuel ih =>
    intro j x out hx ho hx2
    by_cases hx0 : x = 0
    · subst hx0
      refine ⟨out, by simp [uToB64Loop], ?_⟩
      simp [toBase_zero, b64Text, h0]
    · have hle : n ≤ 64 ^ (L + j) := Nat.le_trans hn (Nat.pow_le_pow_right (by decide) (by omega))
      have hpos : 0 < L - out.length := by
        rcases Nat.eq_zero_or_pos (L - out.length) with h | h
        · rw [h] at hx2; omega
        · exact h
      obtain ⟨m, hm⟩ : ∃ m, L - out.length = m + 1 := ⟨L - out.length - 1, by omega⟩
      have hmod : x % 64 < 64 := Nat.mod_lt _ (by decide)
      have hx3 : x / 64 < 64 ^ fuel := by
        rw [Nat.div_lt_iff_lt_mul (by decide)]; rw [Nat.pow_succ] at hx; exact hx
      have hx4 : x / 64 < 64 ^ (L - (b64Chr (x % 64) :: out).length) := by
        rw [Nat.div_lt_iff_lt_mul (by decide), ← Nat.pow_succ]
        have : L - (b64Chr (x % 64) :: out).length + 1 = L - out.length := by
          simp only [List.length_cons]; omega
        rw [Nat.succ_eq_add_one, this]; exact hx2
      obtain ⟨r, hr, hr2⟩ := ih (j + 1) (x / 64) (b64Chr (x % 64) :: out) hx3
        (by simp only [List.length_cons]; omega) hx4
      refine ⟨r, ?_, ?_⟩
      · simp only [uToB64Loop, hx0, if_false, hle, if_true, indexToChar_lt hmod, Res.ok_bind]
        exact hr
      · have hlen : L - (b64Chr (x % 64) :: out).length = m := by
          simp only [List.length_cons]; omega
        rw [hr2, hm, hlen, toBase, b64Text_append, List.append_assoc]
        rfl

/-- On values that fit the requested length, `u32_to_b64`/`u64_to_b64` is positional notation. -/
theorem uToB64_eq {n L : Nat} (hL : 0 < L) (hn : n < 64 ^ L) (h64 : n < 2 ^ 64) :
    uToB64 n L = .ok (b64Text (toBase 64 L n)) := by
  have hf : n < 64 ^ 11 := Nat.lt_of_lt_of_le h64 (by decide)
  obtain ⟨r, hr, hr2⟩ := uToB64Loop_spec (Nat.le_of_lt hn) 11 0 n [] hf (by simp) (by simpa using hn)
  rw [uToB64, if_neg (by omega), hr, Res.ok_bind, hr2]
  simp

end Keride
