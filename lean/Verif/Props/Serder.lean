/-
C55: what the accessors of an event report (serder.rs).
-/
import Verif.Props.Sadder
import Verif.Props.Number
import Verif.Props.Tholder

namespace Keride.Props

open Spec Saider

theorem res_bind_assoc {α β γ : Type} (x : Res α) (f : α → Res β) (g : β → Res γ) : (x >>= f >>= g) = (x >>= fun a => f a >>= g) := by
  cases x <;> rfl

/-- The texts of a list of texts. -/
def texts (l : List Str) : Value := .arr (l.map .str)

theorem readAll_texts {f : Str → Res Matter.M} {l : List Value} {ms : List Matter.M} :
    Serder.readAll f l = .ok ms ↔ ∃ ts : List Str, l = ts.map .str ∧ List.Forall₂ (fun t m => f t = .ok m) ts ms := by
  unfold Serder.readAll
  rw [Res.mapList_ok]
  constructor
  · intro h
    induction h with
    | nil => exact ⟨[], rfl, .nil⟩
    | cons h _ ih =>
      obtain ⟨ts, rfl, hf⟩ := ih
      obtain ⟨t, h1, h2⟩ := Res.bind_eq_ok.mp h
      rename_i v m _ _
      cases v <;> cases h1
      exact ⟨t :: ts, rfl, .cons h2 hf⟩
  · rintro ⟨ts, rfl, h⟩
    induction h with
    | nil => exact .nil
    | cons h _ ih => exact .cons (by simpa [Value.toStr, Res.ok_bind] using h) ih

/-- The common shape of `verfers` and `digers`. -/
theorem list_field (s : Sad) (label : Str) (f : Str → Res Matter.M) (g : Value → Res (List Matter.M)) (ms : List Matter.M)
    (hg : ∀ l, g (.arr l) = Serder.readAll f l) (hn : ∀ v, (∀ l, v ≠ .arr l) → g v = .ok []) :
    (s.ked.toMap >>= fun map => if Value.hasKey label map then (s.ked.index label >>= g) else .ok []) = .ok ms ↔
      ∃ o, s.ked = .obj o ∧
        ((∃ ts, field label s.ked = some (texts ts) ∧ List.Forall₂ (fun t m => f t = .ok m) ts ms) ∨
        (ms = [] ∧ ∀ l, field label s.ked ≠ some (.arr l))) := by
  cases hk : s.ked with
  | obj o =>
    rw [show (Value.obj o).toMap = .ok o from rfl, Res.ok_bind, field_find]
    unfold Value.hasKey Value.index
    dsimp only
    cases hf : Value.find label o with
    | none =>
      rw [if_neg (by simp)]
      constructor
      · intro h
        cases h
        exact ⟨o, rfl, .inr ⟨rfl, by simp⟩⟩
      · rintro ⟨o', -, ⟨ts, h, -⟩ | ⟨rfl, -⟩⟩
        · cases h
        · rfl
    | some v =>
      rw [if_pos (by simp), show Res.orPanic (some v) = .ok v from rfl, Res.ok_bind]
      by_cases hv : ∃ l, v = .arr l
      · obtain ⟨l, rfl⟩ := hv
        rw [hg, readAll_texts]
        constructor
        · rintro ⟨ts, rfl, h⟩
          exact ⟨o, rfl, .inl ⟨ts, rfl, h⟩⟩
        · rintro ⟨o', -, ⟨ts, h, h'⟩ | ⟨-, h⟩⟩
          · injection h with h
            injection h with h
            exact ⟨ts, h, h'⟩
          · exact absurd rfl (h l)
      · push Not at hv
        rw [hn v hv]
        constructor
        · intro h
          cases h
          exact ⟨o, rfl, .inr ⟨rfl, fun l h => hv l (Option.some.inj h)⟩⟩
        · rintro ⟨o', -, ⟨ts, h, -⟩ | ⟨rfl, -⟩⟩
          · exact absurd (Option.some.inj h) (hv _)
          · rfl
  | _ =>
    constructor
    · intro h; cases h
    · rintro ⟨o, h, -⟩; cases h

/-- C55: the signing keys an event reports are exactly the keys it lists, in order, each read as a verification key.
An event without the field, or with something else than a list in it, reports none. -/
theorem C55_keys (s : Sad) (ms : List Matter.M) : Serder.verfers s = .ok ms ↔
    ∃ o, s.ked = .obj o ∧
      ((∃ ts, field (str% "k") s.ked = some (texts ts) ∧ List.Forall₂ (fun t m => Verfer.newWithQb64 t = .ok m) ts ms) ∨
      (ms = [] ∧ ∀ l, field (str% "k") s.ked ≠ some (.arr l))) := by
  rw [← list_field s (str% "k") Verfer.newWithQb64 (fun v => match v with
    | .arr l => Serder.readAll (fun t => Verfer.new none none none (some t) none) l
    | _ => .ok []) ms (fun _ => rfl) (fun v hv => by cases v <;> first | rfl | exact absurd rfl (hv _))]
  rfl

/-- C55: likewise the digests of the next keys. -/
theorem C55_next (H : Hash) (s : Sad) (ms : List Matter.M) : Serder.digers s = .ok ms ↔
    ∃ o, s.ked = .obj o ∧
      ((∃ ts, field (str% "n") s.ked = some (texts ts) ∧ List.Forall₂ (fun t m => Diger.newWithQb64 H t = .ok m) ts ms) ∨
      (ms = [] ∧ ∀ l, field (str% "n") s.ked ≠ some (.arr l))) := by
  rw [← list_field s (str% "n") (Diger.newWithQb64 H) (fun v => match v with
    | .arr l => Serder.readAll (fun t => Diger.new (fun _ _ => []) none none none none (some t) none) l
    | _ => .ok []) ms (fun _ => rfl) (fun v hv => by cases v <;> first | rfl | exact absurd rfl (hv _))]
  rfl

/-- C55: the witnesses: exactly those listed, none without the field; anything else than a list of texts is an error. -/
theorem C55_witnesses (s : Sad) (ms : List Matter.M) : Serder.werfers s = .ok ms ↔
    ∃ o, s.ked = .obj o ∧
      ((∃ ts, field (str% "b") s.ked = some (texts ts) ∧ List.Forall₂ (fun t m => Verfer.newWithQb64 t = .ok m) ts ms) ∨
      (ms = [] ∧ field (str% "b") s.ked = none)) := by
  unfold Serder.werfers
  cases hk : s.ked with
  | obj o =>
    rw [show (Value.obj o).toMap = .ok o from rfl, Res.ok_bind, field_find]
    unfold Value.hasKey Value.index
    dsimp only
    cases hf : Value.find (str% "b") o with
    | none =>
      rw [if_neg (by simp)]
      constructor
      · intro h
        cases h
        exact ⟨o, rfl, .inr ⟨rfl, rfl⟩⟩
      · rintro ⟨o', -, ⟨ts, h, -⟩ | ⟨rfl, -⟩⟩
        · cases h
        · rfl
    | some v =>
      rw [if_pos (by simp), show Res.orPanic (some v) = .ok v from rfl, Res.ok_bind]
      constructor
      · intro h
        obtain ⟨l, h1, h2⟩ := Res.bind_eq_ok.mp h
        cases v <;> cases h1
        obtain ⟨ts, rfl, h'⟩ := readAll_texts.mp h2
        exact ⟨o, rfl, .inl ⟨ts, rfl, h'⟩⟩
      · rintro ⟨o', -, ⟨ts, h, h'⟩ | ⟨-, h⟩⟩
        · injection h with h
          subst h
          rw [show (texts ts).toVec = .ok (ts.map .str) from rfl, Res.ok_bind]
          exact readAll_texts.mpr ⟨ts, rfl, h'⟩
        · cases h
  | _ =>
    constructor
    · intro h; cases h
    · rintro ⟨o, h, -⟩; cases h

/-- Reading a text field that must be there. -/
theorem text_field {α : Type} (v : Value) (k : Str) (g : Str → Res α) : (v.index k >>= fun x => x.toStr >>= g) =
    Res.orPanic (field k v) >>= fun x => x.toStr >>= g := by
  cases v with
  | obj o =>
    rw [field_find]
    rfl
  | _ => rfl

theorem text_field_ok {α : Type} {v : Value} {k : Str} {g : Str → Res α} {a : α} : (v.index k >>= fun x => x.toStr >>= g) = .ok a ↔
    ∃ t, field k v = some (.str t) ∧ g t = .ok a := by
  rw [text_field]
  cases field k v with
  | none => constructor <;> rintro h <;> [cases h; (obtain ⟨t, h, -⟩ := h; cases h)]
  | some x =>
    rw [show Res.orPanic (some x) = .ok x from rfl, Res.ok_bind]
    cases x with
    | str t =>
      rw [show (Value.str t).toStr = .ok t from rfl, Res.ok_bind]
      constructor
      · intro h; exact ⟨t, rfl, h⟩
      · rintro ⟨t', h, h'⟩; cases h; exact h'
    | _ => constructor <;> rintro h <;> [cases h; (obtain ⟨t, h, -⟩ := h; cases h)]

theorem text_field_panic {α : Type} {v : Value} {k : Str} {g : Str → Res α} (hg : ∀ t, g t ≠ .panic) :
    (v.index k >>= fun x => x.toStr >>= g) = .panic ↔ field k v = none := by
  rw [text_field]
  cases field k v with
  | none => simp [Res.orPanic]
  | some x =>
    rw [show Res.orPanic (some x) = .ok x from rfl, Res.ok_bind]
    cases x with
    | str t => rw [show (Value.str t).toStr = .ok t from rfl, Res.ok_bind]; simp [hg t]
    | _ => constructor <;> intro h <;> cases h

/-- C55: the sequence number an event reports is the value of the hexadecimal text in its field `s`. -/
theorem C55_sn (s : Sad) (n : Nat) : Serder.sn s = .ok n ↔
    ∃ t m, field (str% "s") s.ked = some (.str t) ∧ Number.newWithNumh t = .ok m ∧ Number.num m = .ok n := by
  unfold Serder.sn Serder.sner
  rw [Res.bind_eq_ok]
  constructor
  · rintro ⟨m, h1, h2⟩
    obtain ⟨t, h3, h4⟩ := text_field_ok.mp h1
    exact ⟨t, m, h3, h4, h2⟩
  · rintro ⟨t, m, h3, h4, h2⟩
    exact ⟨m, text_field_ok.mpr ⟨t, h3, h4⟩, h2⟩

/-- C55: the identifier is the text in the field `i`. -/
theorem C55_pre (s : Sad) (t : Str) : Serder.pre s = .ok t ↔ field (str% "i") s.ked = some (.str t) := by
  have : Serder.pre s = (s.ked.index (str% "i") >>= fun x => x.toStr >>= fun t => .ok t) := by
    unfold Serder.pre
    congr 1
    funext x
    cases x <;> rfl
  rw [this, text_field_ok]
  constructor
  · rintro ⟨t', h, e⟩; cases e; exact h
  · intro h; exact ⟨t, h, rfl⟩

/-- C55: exactly the inception and rotation types are establishment events. -/
theorem C55_est (s : Sad) (b : Bool) : Serder.est s = .ok b ↔
    ∃ t, field (str% "t") s.ked = some (.str t) ∧ b = decide (t ∈ [str% "icp", str% "rot", str% "dip", str% "drt"]) := by
  unfold Serder.est
  rw [text_field_ok]
  constructor
  · rintro ⟨t, h, e⟩; cases e; exact ⟨t, h, by simp [List.contains_eq_mem]⟩
  · rintro ⟨t, h, rfl⟩; exact ⟨t, h, by simp [List.contains_eq_mem]⟩

/-- C55: the threshold is the one of the text, number or list in the field `kt` (`nt` for the next keys), read as a
threshold expression; there is none without the field. -/
theorem C55_threshold (chk : Bool) (fl : Str → Option Str) (s : Sad) (o : List (Str × Value)) (ho : s.ked = .obj o) :
    (∀ v, field (str% "kt") s.ked = some v → Serder.tholder chk fl s = (Tholder.newWithSith chk (jsonRead fl) v >>= fun t => .ok (some t))) ∧
    (field (str% "kt") s.ked = none → Serder.tholder chk fl s = .ok none) ∧
    (∀ v, field (str% "nt") s.ked = some v → Serder.ntholder chk fl s = (Tholder.newWithSith chk (jsonRead fl) v >>= fun t => .ok (some t))) ∧
    (field (str% "nt") s.ked = none → Serder.ntholder chk fl s = .ok none) := by
  have key : ∀ k, (∀ v, field k s.ked = some v → Serder.tholderAt chk fl k s = (Tholder.newWithSith chk (jsonRead fl) v >>= fun t => .ok (some t))) ∧
      (field k s.ked = none → Serder.tholderAt chk fl k s = .ok none) := by
    intro k
    unfold Serder.tholderAt Value.hasKey
    rw [ho, field_find]
    constructor
    · intro v hv
      rw [show (Value.obj o).toMap = .ok o from rfl, Res.ok_bind, hv, if_pos (by simp)]
      unfold Value.index
      dsimp only
      rw [hv]
      rfl
    · intro hv
      rw [show (Value.obj o).toMap = .ok o from rfl, Res.ok_bind, hv, if_neg (by simp)]
  exact ⟨(key _).1, (key _).2, (key _).1, (key _).2⟩

/-- C55: the accessors panic exactly on events without the field they read. Such events are read without complaint,
see `C55_panic_false`. -/
theorem C55_panic (s : Sad) :
    (Serder.pre s = .panic ↔ field (str% "i") s.ked = none) ∧ (Serder.est s = .panic ↔ field (str% "t") s.ked = none) ∧
    (Serder.sner s = .panic ↔ field (str% "s") s.ked = none) := by
  refine ⟨?_, ?_, ?_⟩
  · have : Serder.pre s = (s.ked.index (str% "i") >>= fun x => x.toStr >>= fun t => .ok t) := by
      unfold Serder.pre
      congr 1
      funext x
      cases x <;> rfl
    rw [this]
    exact text_field_panic (by simp)
  · exact text_field_panic (by simp)
  · refine text_field_panic fun t => ?_
    intro h
    have h : Number.newWithNumh t = .panic := h
    by_cases ht : t = []
    · subst ht
      exact absurd h (by decide)
    · rw [Number.newWithNumh_eq ht] at h
      cases hp : parseUnsigned 16 u128Max t with
      | ok n =>
        have hn := parseUnsigned_le hp
        unfold u128Max at hn
        obtain ⟨c, k, -, -, -, h'⟩ := Number.ofNum_eq (n := n) (by omega)
        rw [hp, Res.ok_bind, h'] at h
        cases h
      | err e => rw [hp] at h; cases h
      | panic => exact parseUnsigned_ne_panic _ _ _ hp

/-- A readable event with no sequence number and no type. -/
def exBare : List (Str × Value) := [(str% "v", .str (versionText (str% "KERI") ⟨1, 0⟩ (str% "JSON") 0)), (str% "d", .str exD0)]

/-- C55: it is false that the accessors of every event that was read return: asking the sequence number, the type or the identifier
of an event without the field is a panic. -/
theorem C55_panic_false (fl : Str → Option Str) : ∃ raw s, Serder.newWithRaw fl raw = .ok s ∧
    Serder.sn s = .panic ∧ Serder.est s = .panic ∧ Serder.pre s = .panic := by
  obtain ⟨s, h1, h2, -, h4, -, -⟩ := C52_accepts fl exBare (str% "KERI") exD0 _ 0 (by decide) (by decide) rfl
    (by simp [exBare, field]) exD0_ok (by decide) (by decide +kernel)
  rw [if_pos rfl] at h1
  have h1' : Serder.newWithKed fl (.obj exBare) none none = .ok s := h1
  have hp : Plain (.obj exBare) := by
    simp only [Plain, Proper, exBare, ProperObj]
    exact ⟨by simp, trivial, trivial, trivial⟩
  have := C52_serder_partial fl _ none none s h1' rfl hp (by simp [exBare, nesting, nestingObj]) (by rw [h4]; decide +kernel) []
  refine ⟨_, s, this, ?_, ?_, ?_⟩
  · unfold Serder.sn
    have : Serder.sner s = .panic := (C55_panic s).2.2.mpr (by rw [h2]; simp [exBare, field])
    rw [this]
    rfl
  · exact (C55_panic s).2.1.mpr (by rw [h2]; simp [exBare, field])
  · exact (C55_panic s).1.mpr (by rw [h2]; simp [exBare, field])

/-- C55 in full is false for the first-seen number: the field `f` is read as a CESR primitive, so the hexadecimal text
that an event writes there (as it does in `s`) is refused or read as another number. -/
theorem C55_first_seen_false (s : Sad) (o : List (Str × Value)) (ho : s.ked = .obj o) :
    (field (str% "f") s.ked = some (.str (str% "1f")) → Serder.fn s = .err .shortage) ∧
    (field (str% "f") s.ked = some (.str (str% "MAAf")) → Serder.fn s = .ok 31) := by
  constructor
  · intro h
    unfold Serder.fn Serder.fner Value.hasKey
    rw [ho, field_find] at h
    rw [ho, show (Value.obj o).toMap = .ok o from rfl, Res.ok_bind, h, if_pos (by simp)]
    unfold Value.index
    dsimp only
    rw [h]
    decide
  · intro h
    unfold Serder.fn Serder.fner Value.hasKey
    rw [ho, field_find] at h
    rw [ho, show (Value.obj o).toMap = .ok o from rfl, Res.ok_bind, h, if_pos (by simp)]
    unfold Value.index
    dsimp only
    rw [h]
    decide

/-- C55: a first-seen number written in the qb64 form of a number is read, and an event without one has none. -/
theorem C55_first_seen (s : Sad) (o : List (Str × Value)) (ho : s.ked = .obj o) :
    (∀ (chk : Bool) (n : Nat) (m : Matter.M) (t : Str), n < 2 ^ 128 → Number.newWithNum n = .ok m → Matter.qb64 chk m = .ok t →
      field (str% "f") s.ked = some (.str t) → Serder.fn s = .ok n) ∧
    (field (str% "f") s.ked = none → Serder.fner s = .ok none ∧ (Serder.fn s).isErr = true) := by
  constructor
  · intro chk n m t hn h1 h2 h
    obtain ⟨m', k1, k2, -, -, -, ⟨t', k3, k4, -⟩, -⟩ := C23_lossless chk n hn
    rw [h1] at k1
    cases k1
    rw [h2] at k3
    cases k3
    unfold Serder.fn Serder.fner Value.hasKey
    rw [ho, field_find] at h
    rw [ho, show (Value.obj o).toMap = .ok o from rfl, Res.ok_bind, h, if_pos (by simp)]
    unfold Value.index
    dsimp only
    rw [h]
    change ((Number.newWithQb64 t >>= fun n => .ok (some n)) >>= fun n => _) = _
    rw [k4]
    exact k2
  · intro h
    unfold Serder.fn Serder.fner Value.hasKey
    rw [ho, field_find] at h
    rw [ho, show (Value.obj o).toMap = .ok o from rfl, Res.ok_bind, h, if_neg (by simp)]
    exact ⟨rfl, rfl⟩

/-- An event with two keys, for the examples. -/
def exKeyed : Sad :=
  { code := str% "E", raw := [], ident := str% "KERI", kind := str% "JSON", size := 0, version := currentVersion, saider := ⟨str% "E", 0, []⟩,
    ked := .obj [(str% "t", .str (str% "rot")), (str% "s", .str (str% "1f")), (str% "i", .str exD0), (str% "kt", .str (str% "2")),
      (str% "k", texts [str% "DAAAAAAAAAAAAAAAAAAAAAAAAAAAAAAAAAAAAAAAAAAA", str% "DAAAAAAAAAAAAAAAAAAAAAAAAAAAAAAAAAAAAAAAAAAB"]),
      (str% "n", texts [exD0, exD1]), (str% "b", texts [])] }

example : Serder.verfers exKeyed = .ok [⟨str% "D", 0, List.replicate 32 0⟩, ⟨str% "D", 0, List.replicate 31 0 ++ [1]⟩] ∧
    Serder.digers exKeyed = .ok [⟨str% "E", 0, List.replicate 32 0⟩, ⟨str% "E", 0, List.replicate 31 0 ++ [1]⟩] ∧
    Serder.werfers exKeyed = .ok [] ∧ Serder.sn exKeyed = .ok 31 ∧ Serder.pre exKeyed = .ok exD0 ∧ Serder.est exKeyed = .ok true := by
  decide +kernel

example : ∃ m t, Number.newWithNum 7 = .ok m ∧ Matter.qb64 true m = .ok t ∧ (7 : Nat) < 2 ^ 128 ∧
    Serder.fn { exKeyed with ked := .obj [(str% "f", .str t)] } = .ok 7 ∧ field (str% "f") exKeyed.ked = none := by
  obtain ⟨m, k1, -, -, -, -, ⟨t, k3, -, -⟩, -⟩ := C23_lossless true 7 (by decide)
  refine ⟨m, t, k1, k3, by decide, (C55_first_seen _ _ rfl).1 true 7 m t (by decide) k1 k3 ?_, by decide⟩
  simp [field]

/-- C55 for credentials: issuer, schema and subject are the fields `i`, `s` and `a`, the status is the field `ri` if
present, the edges the field `e`, empty if absent. -/
theorem C55_credential (s : Sad) (o : List (Str × Value)) (ho : s.ked = .obj o) :
    (∀ t, Creder.issuer s = .ok t ↔ field (str% "i") s.ked = some (.str t)) ∧
    (∀ t, Creder.schema s = .ok t ↔ field (str% "s") s.ked = some (.str t)) ∧
    (∀ v, Creder.subject s = .ok v ↔ field (str% "a") s.ked = some v) ∧
    (∀ t, Creder.status s = .ok (some t) ↔ field (str% "ri") s.ked = some (.str t)) ∧
    (Creder.status s = .ok none ↔ field (str% "ri") s.ked = none) ∧
    Creder.chains s = .ok ((field (str% "e") s.ked).getD (.obj [])) := by
  have text : ∀ k t, (s.ked.index k >>= fun v => v.toStr) = .ok t ↔ field k s.ked = some (.str t) := by
    intro k t
    have : (s.ked.index k >>= fun v => v.toStr) = (s.ked.index k >>= fun x => x.toStr >>= fun t => .ok t) := by
      congr 1
      funext x
      cases x <;> rfl
    rw [this, text_field_ok]
    constructor
    · rintro ⟨t', h, e⟩; cases e; exact h
    · intro h; exact ⟨t, h, rfl⟩
  refine ⟨fun t => text _ t, fun t => text _ t, fun v => ?_, fun t => ?_, ?_, ?_⟩
  · unfold Creder.subject Value.index
    rw [ho, field_find]
    dsimp only
    cases Value.find (str% "a") o <;> simp [Res.orPanic]
  · unfold Creder.status
    rw [ho, field_find, show (Value.obj o).toMap = .ok o from rfl, Res.ok_bind]
    cases Value.find (str% "ri") o with
    | none => simp
    | some v => cases v <;> simp [Value.toStr, Res.ok_bind]
  · unfold Creder.status
    rw [ho, field_find, show (Value.obj o).toMap = .ok o from rfl, Res.ok_bind]
    cases Value.find (str% "ri") o with
    | none => simp
    | some v => cases v <;> simp [Value.toStr, Res.ok_bind]
  · unfold Creder.chains
    rw [ho, field_find, show (Value.obj o).toMap = .ok o from rfl, Res.ok_bind]

end Keride.Props
