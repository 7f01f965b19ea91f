/-
Checks, by evaluation, that messages are fair; for the examples.
-/
import Verif.Lemmas.FairStream
import Verif.Lemmas.World

namespace Keride.World

open Spec Sample

/-- `Tame` as a test. -/
def tame (s : Str) : Bool := decide (∀ c ∈ s, c.toNat < 128) && !s.contains '=' && decide (∀ c ∈ s.head?, c ∉ ['5', '6', '8', '9'])

theorem tame_ok {s : Str} (h : tame s = true) : Tame s := by
  unfold tame at h
  simp only [Bool.and_eq_true, decide_eq_true_eq] at h
  refine ⟨h.1.1, ?_, fun c hc => h.2 c hc⟩
  have := h.1.2
  simpa using this

/-- `TameList` as a test. -/
def tameList : Option Value → Bool
  | some (.arr l) => l.all fun v => match v with
    | .str s => tame s
    | _ => true
  | _ => true

theorem tameList_ok {v : Option Value} (h : tameList v = true) : TameList v := by
  rintro l s rfl hs
  exact tame_ok (List.all_eq_true.mp h _ hs)

/-- `FairThold` as a test, for numbers and flat lists of weights; in debug builds the weights `0`, `1/2` and `1` only. -/
def fairThold (chk : Bool) (v : Option Value) (n : Nat) : Bool :=
  match v with
  | some (.str s) => decide (s.head? ≠ some '[')
  | some (.arr cs) => !cs.isEmpty && decide (n ≤ cs.length) && decide (cs.length < 2 ^ 29) && (cs.all fun c => match c with
    | .str s => s.any fun c => !(str% "0+-/").contains c
    | _ => false) && (!chk || cs.all fun c => match c with
    | .str s => [str% "0", str% "1/2", str% "1"].contains s
    | _ => false)
  | _ => true

theorem halves : ∀ {cs : List Value}, (∀ c ∈ cs, ∃ s, c = .str s ∧ s ∈ [str% "0", str% "1/2", str% "1"]) →
    ∃ qs : List ℚ, List.Forall₂ (fun w q => ∃ s, w = Value.str s ∧ IsWeight s q) cs qs ∧ (∀ q ∈ qs, q.den ∣ 2) ∧ qs.sum ≤ cs.length
  | [], _ => ⟨[], .nil, nofun, by simp⟩
  | c :: cs, h => by
    obtain ⟨s, rfl, hs⟩ := h c List.mem_cons_self
    obtain ⟨qs, h1, h2, h3⟩ := halves fun x hx => h x (List.mem_cons_of_mem _ hx)
    have key : ∃ q : ℚ, IsWeight s q ∧ q.den ∣ 2 ∧ q ≤ 1 := by
      simp only [List.mem_cons, List.not_mem_nil, or_false] at hs
      rcases hs with rfl | rfl | rfl
      · exact ⟨0, .inl ⟨rfl, rfl⟩, by simp, by norm_num⟩
      · refine ⟨1 / 2, .inr (.inr ⟨1, 2, by decide, by decide, by decide, by decide, by norm_num⟩), ?_, by norm_num⟩
        have := Rat.den_dvd 1 2
        have e : ((1 : ℤ) : ℚ) / ((2 : ℤ) : ℚ) = 1 / 2 := by norm_num
        rw [Rat.divInt_eq_div, e] at this
        exact_mod_cast this
      · exact ⟨1, .inr (.inl ⟨rfl, rfl⟩), by simp, by norm_num⟩
    obtain ⟨q, k1, k2, k3⟩ := key
    refine ⟨q :: qs, .cons ⟨s, rfl, k1⟩ h1, ?_, ?_⟩
    · intro x hx
      rcases List.mem_cons.mp hx with rfl | hx
      · exact k2
      · exact h2 x hx
    · rw [List.sum_cons, List.length_cons]
      push_cast
      linarith

theorem zeroText_chars {s : Str} (h : ZeroText s) : ∀ c ∈ s, c ∈ str% "0+-/" := by
  obtain ⟨k, rfl | rfl | rfl⟩ := h <;> intro c hc
  · rw [(List.mem_replicate.mp hc).2]; decide
  · rcases List.mem_cons.mp hc with rfl | hc
    · decide
    · rw [(List.mem_replicate.mp hc).2]; decide
  · rcases List.mem_cons.mp hc with rfl | hc
    · decide
    · rw [(List.mem_replicate.mp hc).2]; decide

theorem fairThold_ok {chk : Bool} {v : Option Value} {n : Nat} (h : fairThold chk v n = true) : FairThold chk v n := by
  have hstr : ∀ cs, v = some (.arr cs) → cs ≠ [] ∧ n ≤ cs.length ∧ cs.length < 2 ^ 29 ∧ (∀ c ∈ cs, ∃ s, c = .str s ∧ ¬ ZeroOver s) ∧
      (chk = true → ∀ c ∈ cs, ∃ s, c = .str s ∧ s ∈ [str% "0", str% "1/2", str% "1"]) := by
    rintro cs rfl
    unfold fairThold at h
    simp only [Bool.and_eq_true, decide_eq_true_eq] at h
    obtain ⟨⟨⟨⟨h1, h2⟩, h3⟩, h4⟩, h5⟩ := h
    refine ⟨by simpa using h1, h2, h3, fun c hc => ?_, ?_⟩
    rotate_left
    · rintro rfl c hc
      rw [Bool.not_true, Bool.false_or] at h5
      have := List.all_eq_true.mp h5 c hc
      cases c with
      | str s => exact ⟨s, rfl, List.contains_iff_mem.mp this⟩
      | _ => cases this
    have := List.all_eq_true.mp h4 c hc
    cases c with
    | str s =>
      refine ⟨s, rfl, ?_⟩
      rintro ⟨x, y, rfl, hx, hy⟩
      obtain ⟨d, hd, hn⟩ := List.any_eq_true.mp this
      rcases List.mem_append.mp hd with hd | hd
      · have := zeroText_chars hx d hd
        simp [this] at hn
      · rcases List.mem_cons.mp hd with rfl | hd
        · revert hn; decide
        · have := zeroText_chars hy d hd
          simp [this] at hn
    | _ => cases this
  constructor
  · rintro s rfl
    exact of_decide_eq_true h
  · intro cs s e hs
    obtain ⟨-, -, -, ha, -⟩ := hstr cs e
    rcases hs with hs | ⟨ws, hw, -⟩
    · obtain ⟨t, ht, hz⟩ := ha _ hs
      cases ht
      exact hz
    · obtain ⟨t, ht, -⟩ := ha _ hw
      cases ht
  · intro cs k e hk
    obtain ⟨h1, h2, h3, ha, -⟩ := hstr cs e
    rcases hk with ⟨-, rfl⟩ | ⟨css, rfl, -⟩
    · exact ⟨h2, by omega⟩
    · exfalso
      cases css with
      | nil => exact h1 rfl
      | cons c css =>
        obtain ⟨t, ht, -⟩ := ha (.arr c) (by simp)
        cases ht
  · intro hc cs e
    obtain ⟨-, -, h3, -, hb⟩ := hstr cs e
    obtain ⟨qs, k1, k2, k3⟩ := halves (hb hc)
    refine ⟨[qs], .inr ⟨_, rfl, .cons ⟨cs, rfl, k1⟩ .nil⟩, ?_⟩
    intro c hc
    rw [List.mem_singleton.mp hc]
    refine ⟨2, by decide, by decide, k2, ?_⟩
    have h3' : (cs.length : ℚ) < 2 ^ 29 := by exact_mod_cast h3
    push_cast
    linarith

/-- Whether the type of a document is one of several. -/
def typed (types : List Str) (v : Value) : Bool :=
  match field (str% "t") v with
  | some (.str t) => types.contains t
  | _ => false

theorem typed_of {types : List Str} {v : Value} (h : HasType types v) : typed types v = true := by
  obtain ⟨t, ht, e⟩ := h
  unfold typed
  rw [e]
  simpa using ht

/-- A scene as lists. -/
structure Cast where
  keys : List Nat
  registry : List Str
  interaction : List Str
  recipient : List Str
  branches : Nat

def Cast.scene (C : Cast) : Scene := ⟨(· ∈ C.keys), (· ∈ C.registry), (· ∈ C.interaction), (· ∈ C.recipient), C.branches⟩

/-- A test of a text in a field, when there is one. -/
def textAt (l : Str) (v : Value) (f : Str → Bool) : Bool :=
  match field l v with
  | some (.str s) => f s
  | _ => true

theorem textAt_ok {l : Str} {v : Value} {f : Str → Bool} (h : textAt l v f = true) {s : Str} (hs : field l v = some (.str s)) : f s = true := by
  unfold textAt at h
  rw [hs] at h
  exact h

/-- `FairDoc` as a test. -/
def fairDoc (chk : Bool) (C : Cast) (v : Value) : Bool :=
  ([str% "d", str% "i", str% "s", str% "t"].all fun l => (field l v).isSome) &&
  ([str% "d", str% "i"].all fun l => textAt l v tame) &&
  tameList (field (str% "k") v) && tameList (field (str% "n") v) && fairThold chk (field (str% "kt") v) (entries (field (str% "k") v)) &&
  fairThold chk (field (str% "nt") v) (entries (field (str% "n") v)) &&
  (!typed [str% "icp", str% "rot", str% "dip", str% "drt"] v || C.keys.contains (entries (field (str% "k") v))) &&
  (!typed keyTypes v || (match field (str% "a") v with
    | some (.arr [x]) => [str% "i", str% "s", str% "d"].all fun l => (field l x).isSome
    | o => o.isSome)) &&
  (!typed [str% "vcp"] v || ((field (str% "ii") v).isSome && textAt (str% "i") v C.registry.contains)) &&
  (!typed [str% "iss", str% "rev"] v || ((field (str% "ri") v).isSome && textAt (str% "ri") v C.registry.contains && textAt (str% "i") v (fun x => !C.registry.contains x) &&
    (field (str% "dt") v).isSome)) &&
  (!typed [str% "ixn"] v || textAt (str% "d") v fun d => C.interaction.contains (d.take 44)) &&
  (!chk || textAt (str% "s") v fun t => decide (t.length ≤ 8))

theorem isSome_ne {o : Option Value} (h : o.isSome = true) : o ≠ none := by
  rintro rfl
  cases h

theorem fairDoc_ok {chk : Bool} {C : Cast} {v : Value} (h : fairDoc chk C v = true) : FairDoc chk C.scene v := by
  unfold fairDoc at h
  simp only [Bool.and_eq_true] at h
  obtain ⟨⟨⟨⟨⟨⟨⟨⟨⟨⟨⟨h1, h2⟩, h3⟩, h4⟩, h5⟩, h6⟩, h7⟩, h8⟩, h9⟩, h10⟩, h11⟩, h12⟩ := h
  refine ⟨?_, ?_, tameList_ok h3, tameList_ok h4, fairThold_ok h5, fairThold_ok h6, ?_, ?_, ?_, ?_, ?_, ?_⟩
  · intro l hl
    exact isSome_ne (List.all_eq_true.mp h1 l hl)
  · intro l hl s hs
    exact tame_ok (textAt_ok (List.all_eq_true.mp h2 l hl) hs)
  · intro ht
    rw [typed_of ht, Bool.not_true, Bool.false_or] at h7
    exact List.contains_iff_mem.mp h7
  · intro ht d hd
    rw [typed_of ht, Bool.not_true, Bool.false_or] at h11
    exact List.contains_iff_mem.mp (textAt_ok h11 hd)
  · intro ht
    rw [typed_of ht, Bool.not_true, Bool.false_or] at h8
    constructor
    · intro e
      rw [e] at h8
      cases h8
    · intro x e l hl
      rw [e] at h8
      exact isSome_ne (List.all_eq_true.mp h8 l hl)
  · intro ht
    rw [typed_of ht, Bool.not_true, Bool.false_or, Bool.and_eq_true] at h9
    exact ⟨isSome_ne h9.1, fun i hi => List.contains_iff_mem.mp (textAt_ok h9.2 hi)⟩
  · intro ht
    rw [typed_of ht, Bool.not_true, Bool.false_or] at h10
    simp only [Bool.and_eq_true] at h10
    obtain ⟨⟨⟨ha, hb⟩, hc⟩, hd⟩ := h10
    refine ⟨isSome_ne ha, fun r hr => List.contains_iff_mem.mp (textAt_ok hb hr), fun i hi hm => ?_, isSome_ne hd⟩
    have := textAt_ok hc hi
    rw [List.contains_iff_mem.mpr (show i ∈ C.registry from hm)] at this
    cases this
  · rintro rfl t ht
    rw [Bool.not_true, Bool.false_or] at h12
    exact of_decide_eq_true (textAt_ok h12 ht)

/-- `FairNode` as a test, but for the schema. -/
def fairNode (C : Cast) (node : Value) : Bool :=
  (field (str% "n") node).isSome &&
  (match field (str% "o") node with
    | some (.str o) => o != str% "DI2I" && (o != str% "I2I" || textAt (str% "n") node C.recipient.contains)
    | some (.arr l) => l.all fun o => match o with
      | .str o => o != str% "DI2I" && (o != str% "I2I" || textAt (str% "n") node C.recipient.contains)
      | _ => false
    | _ => true)

theorem fairNode_ok {E : Env} (hE : ∀ s, KnownSchema E s) {C : Cast} {node : Value} (h : fairNode C node = true) : FairNode E C.scene node := by
  unfold fairNode at h
  rw [Bool.and_eq_true] at h
  obtain ⟨h1, h2⟩ := h
  have key : ∀ op, Named op node → (op != str% "DI2I" && (op != str% "I2I" || textAt (str% "n") node C.recipient.contains)) = true := by
    rintro op (ho | ⟨l, ho, hm⟩)
    · rw [ho] at h2
      exact h2
    · rw [ho] at h2
      exact List.all_eq_true.mp h2 _ hm
  refine ⟨isSome_ne h1, fun s _ => hE s, ?_, ?_, ?_⟩
  · intro l hl o ho
    rw [hl] at h2
    have := List.all_eq_true.mp h2 _ ho
    cases o with
    | str s => exact ⟨s, rfl⟩
    | _ => cases this
  · intro hn
    have := key _ hn
    revert this
    simp
  · intro hn n hf
    have := key _ hn
    rw [Bool.and_eq_true] at this
    have := this.2
    simp only [bne_self_eq_false, Bool.false_or] at this
    exact List.contains_iff_mem.mp (textAt_ok this hf)

/-- The edges of a credential. -/
def edgesOf (v : Value) : List Value :=
  match field (str% "e") v with
  | some (.obj o) => [.obj o]
  | some (.arr l) => l
  | _ => []

theorem edgesOf_of {c : Sad} {edge : Value} (h : Edge c edge) : edge ∈ edgesOf c.ked := by
  obtain ⟨e, he, ⟨o, rfl, rfl⟩ | ⟨l, rfl, hm⟩⟩ := h <;> unfold edgesOf <;> rw [he]
  · exact List.mem_cons_self
  · exact hm

/-- `FairCred` as a test, but for the schemas. -/
def fairCred (C : Cast) (v : Value) : Bool :=
  ([str% "d", str% "i", str% "s", str% "a"].all fun l => (field l v).isSome) &&
  textAt (str% "d") v (fun d => tame d && !C.registry.contains (d.take 44) && (!C.recipient.contains (d.take 44) || (match field (str% "a") v with
    | some a => (field (str% "i") a).isSome
    | none => true))) &&
  ((edgesOf v).all fun edge => match edge with
    | .obj o => o.all fun p => p.1 == str% "d" || p.1 == str% "o" || (match p.2 with
      | .obj m => fairNode C (.obj m)
      | _ => true)
    | _ => true) &&
  decide (Spec.branches v ≤ C.branches)

theorem fairCred_ok {E : Env} (hE : ∀ s, KnownSchema E s) {C : Cast} {c : Sad} (h : fairCred C c.ked = true) : FairCred E C.scene c := by
  unfold fairCred at h
  simp only [Bool.and_eq_true] at h
  obtain ⟨⟨⟨h1, h2⟩, h3⟩, h4⟩ := h
  refine ⟨fun l hl => isSome_ne (List.all_eq_true.mp h1 l hl), ?_, fun s _ => hE s, ?_, ?_, of_decide_eq_true h4⟩
  · intro d hd
    have := textAt_ok h2 hd
    simp only [Bool.and_eq_true] at this
    refine ⟨tame_ok this.1.1, fun hm => ?_⟩
    have := this.1.2
    rw [List.contains_iff_mem.mpr (show d.take 44 ∈ C.registry from hm)] at this
    cases this
  · intro d a hd hr ha
    have := textAt_ok h2 hd
    simp only [Bool.and_eq_true] at this
    have := this.2
    rw [List.contains_iff_mem.mpr (show d.take 44 ∈ C.recipient from hr), ha] at this
    exact isSome_ne this
  · rintro edge o label node he rfl hm hd ho m rfl
    have := List.all_eq_true.mp (List.all_eq_true.mp h3 _ (edgesOf_of he)) _ hm
    rw [beq_eq_false_iff_ne.mpr hd, beq_eq_false_iff_ne.mpr ho] at this
    exact fairNode_ok hE this

/-- `FairGroup` as a test. -/
def fairPath (chk : Bool) (C : Cast) (p : SadPathSig) : Bool :=
  (Bexter.bext p.pather).isOk && (Matter.qb64 chk p.prefixer).isOk && (Seqner.sn p.seqner).isOk && (match Matter.qb64 chk p.saider with
    | .ok q => !C.interaction.contains q
    | _ => false) && p.sigers.all fun s => !C.keys.contains s.i.index

def fairGroup (chk : Bool) (C : Cast) : Group → Bool
  | .quadlets l => l.all fun g => match g with
    | .controller sigs => sigs.all fun s => !C.keys.contains s.i.index
    | .sadPath ps => ps.all (fairPath chk C)
    | _ => true
  | .couples l => l.all fun c => (Seqner.sn c.1).isOk && (Matter.qb64 chk c.2).isOk
  | .other => true

theorem isOk_ne {α : Type} {r : Res α} (h : r.isOk = true) : r ≠ .panic := by
  rintro rfl
  cases h

theorem notIn {α : Type} [BEq α] [LawfulBEq α] {x : α} {l : List α} (h : (!l.contains x) = true) : x ∉ l := by
  intro hm
  rw [List.contains_iff_mem.mpr hm] at h
  cases h

theorem fairGroup_ok {chk : Bool} {C : Cast} {g : Group} (h : fairGroup chk C g = true) : FairGroup chk C.scene g := by
  cases g with
  | quadlets l =>
    constructor
    · intro sigs hs s hm
      exact notIn (List.all_eq_true.mp (List.all_eq_true.mp h _ hs) s hm)
    · intro ps hs p hm
      have := List.all_eq_true.mp (List.all_eq_true.mp h _ hs) p hm
      unfold fairPath at this
      simp only [Bool.and_eq_true] at this
      obtain ⟨⟨⟨⟨h1, h2⟩, h3⟩, h4⟩, h5⟩ := this
      refine ⟨isOk_ne h1, isOk_ne h2, isOk_ne h3, ?_, ?_, fun s hs => notIn (List.all_eq_true.mp h5 s hs)⟩
      · intro e
        rw [e] at h4
        cases h4
      · intro q hq
        rw [hq] at h4
        exact notIn h4
  | couples l =>
    intro c hc
    have := List.all_eq_true.mp h c hc
    rw [Bool.and_eq_true] at this
    exact ⟨isOk_ne this.1, isOk_ne this.2⟩
  | other => trivial

/-- `FairMsg` as a test, for payloads without anything after the document. -/
def fairMsg (E : Env) (C : Cast) : Msg → Bool
  | .payload text => (match sniff (toUtf8 text) with
      | .ok info => decide (info.size = text.len)
      | _ => true) &&
    (match jsonParse (fun _ => none) jsonDepth text with
      | .ok v => plain v && (field (str% "d") v).isSome && textAt (str% "d") v tame
      | _ => true) &&
    (match Serder.newWithRaw (fun _ => none) (toUtf8 text) with
      | .ok s => fairDoc E.chk C s.ked
      | _ => true) &&
    (match Creder.newWithRaw (fun _ => none) (toUtf8 text) with
      | .ok c => fairCred C c.ked
      | _ => true)
  | .group g text => fairGroup E.chk C g && (match text with
    | .ok t => (match E.parse (toUtf8 t) with
      | .ok (.group g _ :: _) => fairGroup E.chk C g
      | .ok (.payload _ :: _) => true
      | .err _ => true
      | _ => false)
    | .err _ => true
    | .panic => false)

theorem fairMsg_ok {E : Env} (hfl : E.fl = fun _ => none) (hE : ∀ s, KnownSchema E s) {C : Cast} {m : Msg} (h : fairMsg E C m = true) : FairMsg E C.scene m := by
  cases m with
  | payload text =>
    unfold fairMsg at h
    simp only [Bool.and_eq_true] at h
    obtain ⟨⟨⟨h1, h2⟩, h3⟩, h4⟩ := h
    have key : ∀ info part rest v, sniff (toUtf8 text) = .ok info → text = part ++ rest → part.len = info.size → jsonParse E.fl jsonDepth part = .ok v →
        plain v = true ∧ (field (str% "d") v).isSome = true ∧ textAt (str% "d") v tame = true := by
      intro info part rest v hi e hl hv
      rw [hi] at h1
      have h1 := of_decide_eq_true h1
      have hr : rest = [] := by
        rw [← hl, e, ← toUtf8_length, ← toUtf8_length, toUtf8_append, List.length_append] at h1
        cases rest with
        | nil => rfl
        | cons c l =>
          exfalso
          have : 0 < (toUtf8 (c :: l)).length := by
            have := c.utf8Size_pos
            rw [toUtf8_length, Str.len]
            omega
          omega
      rw [hr, List.append_nil] at e
      rw [hfl] at hv
      rw [e, hv] at h2
      simp only [Bool.and_eq_true] at h2
      exact ⟨h2.1.1, h2.1.2, h2.2⟩
    refine ⟨?_, ?_, ?_, ?_, ?_⟩
    · intro info hi
      rw [hi] at h1
      exact (of_decide_eq_true h1).le
    · intro info part rest v hi e hl hv
      obtain ⟨k1, k2, k3⟩ := key info part rest v hi e hl hv
      exact ⟨plain_proper v k1, fun d hd => tame_ok (textAt_ok k3 hd)⟩
    · intro info part rest v hi e hl hv
      exact isSome_ne (key info part rest v hi e hl hv).2.1
    · intro s hs
      rw [hfl] at hs
      rw [hs] at h3
      exact fairDoc_ok h3
    · intro c hc
      rw [hfl] at hc
      rw [hc] at h4
      exact fairCred_ok hE h4
  | group g text =>
    unfold fairMsg at h
    rw [Bool.and_eq_true] at h
    obtain ⟨h1, h2⟩ := h
    refine ⟨fairGroup_ok h1, ?_, ?_⟩
    · rintro rfl
      cases h2
    · rintro t rfl
      dsimp only at h2
      unfold FairAttached
      generalize E.parse (toUtf8 t) = r at h2 ⊢
      cases r with
      | panic => cases h2
      | err e => exact ⟨nofun, nofun⟩
      | ok l =>
        cases l with
        | nil => cases h2
        | cons m l =>
          refine ⟨nofun, fun msgs hm => ?_⟩
          cases hm
          refine ⟨m, l, rfl, ?_⟩
          rintro g t rfl
          exact fairGroup_ok h2

/-- The scene of a stream, with one number of keys. -/
def castOf (n : Nat) (msgs : List Msg) : Cast where
  keys := [n]
  registry := msgs.filterMap fun m => match m with
    | .payload text => (match Serder.newWithRaw (fun _ => none) (toUtf8 text) with
      | .ok s => (match typed [str% "vcp"] s.ked, field (str% "i") s.ked with
        | true, some (.str i) => some i
        | _, _ => none)
      | _ => none)
    | _ => none
  interaction := msgs.filterMap fun m => match m with
    | .payload text => (match Serder.newWithRaw (fun _ => none) (toUtf8 text) with
      | .ok s => (match typed [str% "ixn"] s.ked, field (str% "d") s.ked with
        | true, some (.str i) => some (i.take 44)
        | _, _ => none)
      | _ => none)
    | _ => none
  recipient := []
  branches := 3

end Keride.World
