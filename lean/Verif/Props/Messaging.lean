/-
C53 and C54: messages with attached signatures and receipts (messaging.rs, seal.rs, receipting.rs).
-/
import Verif.Model.Messaging
import Verif.Spec.Stream
import Verif.Props.Indexer
import Verif.Props.Counter
import Verif.Props.Number
import Verif.Props.Sadder

namespace Keride.Props

open Spec Messaging

theorem counterText_ok {code : Str} {n : Nat} {t : Str} (h : counterText code n = .ok t) (hn : n < 2 ^ 32) :
    Counter.newWithCodeAndCount code n = .ok ⟨code, n⟩ ∧ Counter.fullSize ⟨code, n⟩ = .ok t.length ∧
      ∀ r, Counter.newWithQb64 (t ++ r) = .ok ⟨code, n⟩ := by
  unfold counterText at h
  rw [Nat.mod_eq_of_lt hn] at h
  obtain ⟨c, h1, h2⟩ := Res.bind_eq_ok.mp h
  obtain ⟨e1, e2, s, b, h3, -, -, h4, -, -, -, h5⟩ := C20_roundtrip code n c h1
  obtain ⟨cc, cn⟩ := c
  dsimp only at e1 e2
  subst e1 e2
  rw [h2] at h3
  cases h3
  exact ⟨h1, h5, h4⟩

theorem sigTexts_reads {chk : Bool} {l : List Siger} {t : Str} (h : sigTexts chk l = .ok t) (hl : ∀ g ∈ l, Written g.i) (rest : Str) :
    ReadSigs chk l.length (t ++ rest) (l.map Siger.i) rest := by
  induction l generalizing t with
  | nil =>
    cases h
    exact .nil _
  | cons g l ih =>
    unfold sigTexts at h
    obtain ⟨a, h1, h2⟩ := Res.bind_eq_ok.mp h
    obtain ⟨r, h3, h4⟩ := Res.bind_eq_ok.mp h2
    cases h4
    obtain ⟨e, he, raw, index, ondex, hc, hm⟩ := hl g (by simp)
    obtain ⟨s, m', q1, q2, q3, q4, -⟩ := C19_framing chk e he raw index ondex g.i hm
    obtain ⟨-, s', p1, -, -, -, p2⟩ := C16_roundtrip_partial chk e he raw index ondex hc g.i hm
    rw [h1] at q1 p1
    cases q1
    cases p1
    have e1 : m' = g.i := by
      have := (p2 chk).1
      rw [q3] at this
      exact Res.ok.inj this
    subst e1
    rw [List.append_assoc]
    refine .cons (q4 _) q2 ?_
    rw [List.drop_left]
    exact ih h3 fun g hg => hl g (by simp [hg])

theorem sealText_head {chk : Bool} {sl : Option Seal} {t : Str} (h : sealText chk sl = .ok t) : SealHead sl t := by
  unfold sealText at h
  split at h
  · cases h
    rfl
  · rename_i s
    unfold SealHead
    dsimp only
    by_cases hl : s.last
    · rw [if_pos hl] at h ⊢
      obtain ⟨c, h1, h2⟩ := Res.bind_eq_ok.mp h
      cases h2
      obtain ⟨-, h4, h5⟩ := counterText_ok h1 (by decide)
      refine ⟨c, rfl, h5, ?_⟩
      have : Counter.fullSize ⟨str% "-H", 1⟩ = .ok 4 := by decide
      rw [this] at h4
      exact (Res.ok.inj h4).symm
    · rw [if_neg hl] at h ⊢
      obtain ⟨c, h1, h2⟩ := Res.bind_eq_ok.mp h
      obtain ⟨q, h3, h4⟩ := Res.bind_eq_ok.mp h2
      cases h4
      obtain ⟨-, h5, h6⟩ := counterText_ok h1 (by decide)
      unfold Seal.sText at h3
      obtain ⟨m, h7, h8⟩ := Res.bind_eq_ok.mp h3
      have h9 : ∃ n, parseUnsigned 16 u128Max s.s = .ok n ∧ Seqner.newWithSn n = .ok m := by
        unfold Seqner.newWithSnh Seqner.new at h7
        dsimp only at h7
        rw [if_pos (by decide)] at h7
        cases hp : parseUnsigned 16 u128Max s.s with
        | ok n => rw [hp] at h7; exact ⟨n, rfl, h7⟩
        | err e => rw [hp] at h7; cases h7
        | panic => rw [hp] at h7; cases h7
      obtain ⟨n, hn, h9⟩ := h9
      obtain ⟨m', g1, g2, -, ⟨s', g3, -, g4, -⟩, -⟩ := C25_lossless chk n (by have := parseUnsigned_le hn; unfold u128Max at this; omega)
      rw [h9] at g1
      cases g1
      rw [h8] at g3
      cases g3
      refine ⟨c, q, m, n, by simp, h6, ?_, g4, g2, hn⟩
      have : Counter.fullSize ⟨str% "-F", 1⟩ = .ok 4 := by decide
      rw [this] at h5
      exact (Res.ok.inj h5).symm

theorem group_reads {chk : Bool} {code : Str} {l : List Siger} {c t : Str} (hc : counterText code l.length = .ok c) (ht : sigTexts chk l = .ok t)
    (hl : ∀ g ∈ l, Written g.i) (hn : l.length < 2 ^ 32) (rest : Str) : StartsWithGroup chk code (l.map Siger.i) (c ++ t ++ rest) rest := by
  obtain ⟨-, h2, h3⟩ := counterText_ok hc hn
  unfold StartsWithGroup
  rw [List.length_map, List.append_assoc]
  refine ⟨h3 _, _, h2, ?_⟩
  rw [List.drop_left]
  exact sigTexts_reads ht hl rest

/-- C53, partial: a message made by `messagize` is the text of the event followed by the attachments, and reading the
attachments one element at a time gives back the header for the seal, then exactly the controller's signatures
in order, then exactly the witnesses' signatures. For signatures whose ondex their code can write, at
most 2^32 - 1 of them. Missing: signatures in `cigars`, see `C53_false`. -/
theorem C53_partial (chk : Bool) (serder : Sad) (sigers : Option (List Siger)) (sl : Option Seal) (wigers : Option (List Siger))
    (cigars : Option (List Cigar)) (msg : Str) (h : messagize chk serder sigers sl wigers cigars = .ok msg)
    (hs : ∀ l, sigers = some l → l.length < 2 ^ 32 ∧ ∀ g ∈ l, Written g.i) (hw : ∀ l, wigers = some l → l.length < 2 ^ 32 ∧ ∀ g ∈ l, Written g.i) :
    ∃ event head a b, fromUtf8 serder.raw = .ok event ∧ msg = event ++ (head ++ (a ++ b)) ∧
      (sigers = none → head = [] ∧ a = []) ∧
      (∀ l, sigers = some l → SealHead sl head ∧ ∀ rest, StartsWithGroup chk (str% "-A") (l.map Siger.i) (a ++ rest) rest) ∧
      (wigers = none → b = []) ∧
      (∀ l, wigers = some l → ∀ rest, StartsWithGroup chk (str% "-B") (l.map Siger.i) (b ++ rest) rest) := by
  unfold messagize at h
  obtain ⟨event, h1, h2⟩ := Res.bind_eq_ok.mp h
  split at h2
  · cases h2
  obtain ⟨x, h3, h4⟩ := Res.bind_eq_ok.mp h2
  obtain ⟨y, h5, h6⟩ := Res.bind_eq_ok.mp h4
  cases h6
  have hb : (wigers = none → y = []) ∧ (∀ l, wigers = some l → ∀ rest, StartsWithGroup chk (str% "-B") (l.map Siger.i) (y ++ rest) rest) := by
    cases wigers with
    | none => cases h5; exact ⟨fun _ => rfl, fun _ h => by cases h⟩
    | some l =>
      refine ⟨fun h => by (cases h), fun l' e rest => ?_⟩
      cases e
      obtain ⟨hn, hl⟩ := hw l rfl
      unfold wigersText at h5
      obtain ⟨c, g1, g2⟩ := Res.bind_eq_ok.mp h5
      obtain ⟨t, g3, g4⟩ := Res.bind_eq_ok.mp g2
      cases g4
      exact group_reads g1 g3 hl hn rest
  cases sigers with
  | none =>
    cases h3
    exact ⟨event, [], [], y, h1, by simp, fun _ => ⟨rfl, rfl⟩, fun _ h => by (cases h), hb.1, hb.2⟩
  | some l =>
    obtain ⟨hn, hl⟩ := hs l rfl
    unfold sigersText at h3
    obtain ⟨hd, g0, g0'⟩ := Res.bind_eq_ok.mp h3
    obtain ⟨c, g1, g2⟩ := Res.bind_eq_ok.mp g0'
    obtain ⟨t, g3, g4⟩ := Res.bind_eq_ok.mp g2
    cases g4
    refine ⟨event, hd, c ++ t, y, h1, by simp, fun h => by (cases h), fun l' e => ?_, hb.1, hb.2⟩
    cases e
    exact ⟨sealText_head g0, fun rest => group_reads g1 g3 hl hn rest⟩

/-- An indexed signature. -/
def exSig (i : Nat) : Siger := ⟨⟨str% "A", List.replicate 64 7, i, i⟩, Verfer.default⟩

theorem exSig_written (i : Nat) (hi : i < 64) : Written (exSig i).i := by
  refine ⟨⟨str% "A", 1, 0, false, 64⟩, by decide, List.replicate 64 7, i, none, .inl rfl, ?_⟩
  obtain ⟨h1, h2, -⟩ := C18_bounds_partial ⟨str% "A", 1, 0, false, 64⟩ (by decide) (List.replicate 64 7) (by decide) i none
  have h1 := h1.mpr ⟨by simpa using hi, by simp⟩
  obtain ⟨m, hm⟩ := Res.isOk_iff.mp h1
  have := (C16_roundtrip_partial true ⟨str% "A", 1, 0, false, 64⟩ (by decide) (List.replicate 64 7) i none (.inl rfl) m hm).1
  rw [hm, this]
  rfl

/-- The hypotheses of `C53_partial` are met: two controller signatures, one witness signature and a seal. -/
example (chk : Bool) (serder : Sad) (hr : serder.raw = toUtf8 (str% "{}")) :
    (messagize chk serder (some [exSig 0, exSig 1]) (some ⟨exD0, str% "1f", exD1, false⟩) (some [exSig 2]) none).isOk = true ∧
    ∀ g ∈ [exSig 0, exSig 1, exSig 2], Written g.i := by
  constructor
  · unfold messagize
    rw [hr]
    cases chk <;> decide +kernel
  · intro g hg
    simp only [List.mem_cons, List.not_mem_nil, or_false] at hg
    rcases hg with rfl | rfl | rfl <;> exact exSig_written _ (by decide)

/-- C53 in full is false: signatures by non-transferable keys are accepted and left out. A message "signed" by them
alone carries no signature at all. -/
theorem C53_false (chk : Bool) (serder : Sad) (event : Str) (he : fromUtf8 serder.raw = .ok event) (cigars : List Cigar) :
    messagize chk serder none none none (some cigars) = .ok event := by
  unfold messagize
  rw [he, Res.ok_bind, if_neg (by simp)]
  simp [sigersText, wigersText, Res.ok_bind]

/-- C53: without any list of signatures nothing is produced, and a list too long for its counter is an error. -/
theorem C53_reject (chk : Bool) (serder : Sad) (sl : Option Seal) :
    (messagize chk serder none sl none none).isOk = false ∧
    ∀ l : List Siger, 4096 ≤ l.length → l.length < 2 ^ 32 → ∀ wigers cigars, (messagize chk serder (some l) sl wigers cigars).isOk = false := by
  constructor
  · unfold messagize
    cases fromUtf8 serder.raw with
    | ok e => rw [Res.ok_bind, if_pos (by simp)]; rfl
    | err e => rfl
    | panic => rfl
  · intro l h1 h2 wigers cigars
    rw [Bool.eq_false_iff]
    intro h
    obtain ⟨m, h⟩ := Res.isOk_iff.mp h
    unfold messagize at h
    obtain ⟨event, -, h⟩ := Res.bind_eq_ok.mp h
    rw [if_neg (by simp)] at h
    obtain ⟨x, h, -⟩ := Res.bind_eq_ok.mp h
    unfold sigersText at h
    obtain ⟨hd, -, h⟩ := Res.bind_eq_ok.mp h
    obtain ⟨c, h, -⟩ := Res.bind_eq_ok.mp h
    have h := (counterText_ok h h2).1
    have := (C21_range (str% "-A") l.length).2.1.mp (by rw [h]; rfl)
    obtain ⟨n, hn, hl⟩ := this
    have : n = 2 := by simpa [counterCodes] using hn
    subst this
    omega

/-! ## C54 -/

/-- The document of a receipt. -/
def receiptDoc (pre said : Str) (sn size : Nat) : List (Str × Value) :=
  [(str% "v", .str (versionText (str% "KERI") ⟨1, 0⟩ (str% "JSON") size)), (str% "t", .str (str% "rct")), (str% "d", .str said),
    (str% "i", .str pre), (str% "s", .str (fmtNat 16 sn))]

/-- C54: a receipt for an event names exactly the identifier, the sequence number and the digest given, and is read
back from its bytes, whatever text follows. For sequence numbers of 128 bits, Blake3-256 digests and receipts under
16 MiB. -/
theorem C54_receipt (fl : Str → Option Str) (pre said : Str) (sn : Nat) (hsn : sn < 2 ^ 128) (m : Matter.M) (hm : Matter.newWithQb64 said = .ok m)
    (hc : m.code = str% "E") (hl : (toUtf8 (Value.obj (receiptDoc pre said sn 0)).toJson).length < 2 ^ 24) :
    ∃ s, receipt fl pre sn said none none = .ok s ∧ s.saider = m ∧ Serder.pre s = .ok pre ∧ Serder.sn s = .ok sn ∧
      Serder.est s = .ok false ∧ s.ked = .obj (receiptDoc pre said sn s.raw.length) ∧ s.raw = toUtf8 s.ked.toJson ∧
      ∀ rest, Serder.newWithRaw fl (s.raw ++ toUtf8 rest) = .ok s := by
  obtain ⟨n, h1, h2, -, ⟨h, h3, h3'⟩, -⟩ := C23_lossless true sn hsn
  have hh : h = fmtNat 16 sn := by
    unfold Number.numh at h3
    rw [h2, Res.ok_bind] at h3
    exact (Res.ok.inj h3).symm
  subst hh
  have hv : versify none (some currentVersion) (some (str% "JSON")) (some 0) = .ok (versionText (str% "KERI") ⟨1, 0⟩ (str% "JSON") 0) := by decide
  obtain ⟨s, g1, g2, g3, g4, g5, g6⟩ := C52_accepts fl (receiptDoc pre said sn 0) (str% "KERI") said m 0 (by decide) (by decide) rfl
    (by simp [receiptDoc, field]) hm (by rw [hc]; decide) hl
  rw [if_pos rfl, hc] at g1
  have g1' : Serder.newWithKed fl (.obj (receiptDoc pre said sn 0)) none none = .ok s := g1
  have hp : Plain (.obj (receiptDoc pre said sn 0)) := by
    simp only [Plain, Proper, receiptDoc, ProperObj]
    exact ⟨by simp, trivial, trivial, trivial, trivial, trivial, trivial⟩
  have g2' : s.ked = .obj (receiptDoc pre said sn s.raw.length) := by
    rw [g2, g4]
    rfl
  refine ⟨s, ?_, g6, ?_, ?_, ?_, g2', g3, fun rest => ?_⟩
  · unfold receipt
    dsimp only [Option.getD_none]
    rw [hv, Res.ok_bind, h1, Res.ok_bind, h3, Res.ok_bind]
    exact g1'
  · unfold Serder.pre
    rw [g2']
    simp [receiptDoc, Value.index, Value.find, Res.ok_bind, Value.toStr]
  · unfold Serder.sn Serder.sner
    rw [g2']
    have : (Value.obj (receiptDoc pre said sn s.raw.length)).index (str% "s") = .ok (.str (fmtNat 16 sn)) := by
      simp [receiptDoc, Value.index, Value.find]
    rw [this, Res.ok_bind, show (Value.str (fmtNat 16 sn)).toStr = .ok (fmtNat 16 sn) from rfl, Res.ok_bind]
    have : Number.new none (some (fmtNat 16 sn)) none none none none none = .ok n := h3'
    rw [this, Res.ok_bind, h2]
  · unfold Serder.est
    rw [g2']
    simp [receiptDoc, Value.index, Value.find, Res.ok_bind, Value.toStr]
  · exact C52_serder_partial fl _ none none s g1' rfl hp (by simp [receiptDoc, nesting, nestingObj]) (by rw [g4]; omega) rest

/-- A concrete receipt. -/
example (fl : Str → Option Str) : ∃ s, receipt fl exD1 31 exD0 none none = .ok s ∧ Serder.sn s = .ok 31 := by
  obtain ⟨s, h1, -, -, h4, -⟩ := C54_receipt fl exD1 exD0 31 (by decide) _ exD0_ok rfl (by decide +kernel)
  exact ⟨s, h1, h4⟩

/-- C54: a receipt for an event whose digest is of another kind than Blake3-256, or is not a digest, is refused. -/
theorem C54_reject (fl : Str → Option Str) (pre said : Str) (sn : Nat) (h : ∀ m, Matter.newWithQb64 said = .ok m → m.code ≠ str% "E")
    (version : Option Version) (kind : Option Str) : (receipt fl pre sn said version kind).isOk = false := by
  rw [Bool.eq_false_iff]
  intro hr
  obtain ⟨s, hr⟩ := Res.isOk_iff.mp hr
  unfold receipt at hr
  obtain ⟨vs, -, hr⟩ := Res.bind_eq_ok.mp hr
  obtain ⟨n, -, hr⟩ := Res.bind_eq_ok.mp hr
  obtain ⟨t, -, hr⟩ := Res.bind_eq_ok.mp hr
  obtain ⟨hr, -⟩ := serder_ked.mp hr
  obtain ⟨o, ident, size, p, q, d, e, -, -, hd, hm, hc, -⟩ := populateFromKed_ok hr
  injection e with e
  subst e
  have : d = said := by simpa [Value.find] using hd.symm
  subst this
  exact h _ (saiderOf_ok hm).1 hc

example (fl : Str → Option Str) : (receipt fl exD1 0 (str% "HAAAAAAAAAAAAAAAAAAAAAAAAAAAAAAAAAAAAAAAAAAA") none none).isOk = false := by
  have hm : Matter.newWithQb64 (str% "HAAAAAAAAAAAAAAAAAAAAAAAAAAAAAAAAAAAAAAAAAAA") = .ok ⟨str% "H", 0, List.replicate 32 0⟩ := by decide +kernel
  refine C54_reject fl _ _ _ (fun m h => ?_) _ _
  rw [hm] at h
  cases h
  decide

end Keride.Props
