/-
The reader reads messages.
-/
import Verif.Spec.Reader
import Verif.Lemmas.Json
import Verif.Lemmas.Util
import Verif.Lemmas.MatterTables
import Verif.Lemmas.Utf8Inv

namespace Keride

open Spec Sample Matter

theorem parseVal_obj {F : Str → Prop} {fl : Str → Option Str} (hF : ∀ t, F t → FloatOk fl t) {o : List (Str × Value)} (hv : Proper F (.obj o)) {fuel depth : Nat} {r : Str}
    (hf : (Value.obj o).toJson.length < fuel) (hd : nesting (.obj o) < depth) : parseVal fl fuel depth ((Value.obj o).toJson ++ r) = some (.obj o, r) := by
  cases fuel with
  | zero => omega
  | succ fuel =>
    rw [Proper] at hv
    rw [nesting] at hd
    have e : (Value.obj o).toJson ++ r = '{' :: (joinWith ',' (Value.jsonObj o) ++ '}' :: r) := by
      rw [Value.toJson]; simp
    rw [Value.toJson] at hf
    simp only [List.length_cons, List.length_append, List.length_nil] at hf
    rw [e, parseVal, skipWs_cons (by decide)]
    simp only
    rw [if_neg (by decide), if_neg (by decide), if_neg (by decide), if_neg (by decide), if_neg (by decide), if_pos trivial, if_neg (by omega)]
    cases o with
    | nil => simp [Value.jsonObj, joinWith, skipWs]
    | cons p l =>
      obtain ⟨k, v⟩ := p
      have e3 : ∃ u', joinWith ',' (Value.jsonObj ((k, v) :: l)) ++ '}' :: r = '"' :: u' := by
        rw [Value.jsonObj, joinWith_cons]
        exact ⟨_, rfl⟩
      obtain ⟨u', e3⟩ := e3
      rw [if_neg]
      · rw [parseEntries_json hF ((k, v) :: l) hv.2 (by simp) fuel (depth - 1) [] r (by simpa using hv.1) (by omega) (by omega)]
        rfl
      · rw [e3, skipWs_cons (by decide)]
        simp

theorem siger_read {chk : Bool} {t : Str} {g : Siger} (hg : FromText g) (h : Indexer.newWithQb64 chk t = .ok g.i) : Siger.newWithQb64 chk t none = .ok g := by
  unfold Siger.newWithQb64 Siger.new
  have hi : Indexer.new chk none none none none none (some t) none = .ok g.i := h
  rw [hi, Res.ok_bind]
  unfold Siger.validateCode
  rw [if_pos (List.contains_iff_mem.mpr hg.1), Res.ok_bind]
  obtain ⟨i, v⟩ := g
  obtain ⟨-, rfl⟩ := hg
  rfl

theorem readSigers_ok {chk : Bool} : ∀ {n : Nat} {t : Str} {l : List Siger} {rest : Str}, ReadSigs chk n t (l.map Siger.i) rest → (∀ g ∈ l, FromText g) →
    readSigers chk n t = .ok (l, rest) := by
  intro n
  induction n with
  | zero =>
    intro t l rest h hl
    cases l with
    | nil => cases h; rfl
    | cons g l => cases h
  | succ n ih =>
    intro t l rest h hl
    cases l with
    | nil => cases h
    | cons g l =>
      rw [List.map_cons] at h
      cases h with
      | cons hg hk hs =>
        unfold readSigers
        rw [siger_read (hl g (by simp)) hg, Res.ok_bind, hk, Res.ok_bind, ih hs (fun x hx => hl x (by simp [hx])), Res.ok_bind]

theorem readItem_ok {m : M} {t : Str} (h : Item m t) (r : Str) : readItem (t ++ r) = .ok (m, r) := by
  unfold readItem
  rw [h.1 r, Res.ok_bind, h.2, Res.ok_bind, List.drop_left]

theorem readCount_ok {code t : Str} {n : Nat} (hc : Counter.sizage code = .ok ⟨2, 2, 4, 0⟩) (h : CountItem code n t) (r : Str) :
    readCount (t ++ r) = .ok (⟨code, n⟩, r) := by
  unfold readCount Counter.fullSize
  rw [h.2 r, Res.ok_bind]
  dsimp only
  rw [hc, Res.ok_bind, Res.ok_bind]
  dsimp only
  rw [← h.1, List.drop_left]

theorem readGroup_ok {chk : Bool} {code t rest : Str} {l : List Siger} (h : StartsWithGroup chk code (l.map Siger.i) t rest) (hl : ∀ g ∈ l, FromText g) :
    ∃ u, readCount t = .ok (⟨code, l.length⟩, u) ∧ readSigers chk l.length u = .ok (l, rest) := by
  obtain ⟨h1, k, h2, h3⟩ := h
  rw [List.length_map] at h1 h2 h3
  refine ⟨t.drop k, ?_, readSigers_ok h3 hl⟩
  unfold readCount
  rw [h1, Res.ok_bind, h2, Res.ok_bind]

theorem counter_head {t : Str} {c : Counter.C} (h : Counter.newWithQb64 t = .ok c) : ∃ u, t = '-' :: u := by
  have h : Counter.exfil t = .ok c := h
  unfold Counter.exfil at h
  split at h
  · cases h
  obtain ⟨first, hf, h⟩ := Res.bind_eq_ok.mp h
  obtain ⟨hs, hh, -⟩ := Res.bind_eq_ok.mp h
  obtain ⟨u, e, -⟩ := sliceTo_ok hf
  have hm : first ∈ Counter.hardageTable.map Prod.fst := by
    unfold Counter.hardage at hh
    have := Res.ofOption_eq_ok.mp hh
    exact List.mem_map.mpr ⟨_, Matter.lookup_mem this, rfl⟩
  have hall : ∀ x ∈ Counter.hardageTable.map Prod.fst, x.head? = some '-' := by decide
  have := hall _ hm
  cases first with
  | nil => cases this
  | cons d first =>
    cases (Option.some.inj this : d = '-')
    exact ⟨first ++ u, by rw [e]; rfl⟩

theorem readCount_head {t : Str} {r : Counter.C × Str} (h : readCount t = .ok r) : ∃ u, t = '-' :: u := by
  unfold readCount at h
  obtain ⟨c, hc, -⟩ := Res.bind_eq_ok.mp h
  exact counter_head hc

theorem readGroups_one {chk : Bool} {body : Str} {g : SigGroup} {c : Counter.C} {u : Str} (hc : readCount body = .ok (c, u))
    (h : (c.code = str% "-A" ∧ ∃ l, readSigers chk c.count u = .ok (l, []) ∧ g = .controller l) ∨
      (c.code = str% "-J" ∧ ∃ l, readProofs chk c.count u = .ok (l, []) ∧ g = .sadPath l)) : readGroups chk body.length body = .ok [g] := by
  obtain ⟨w, rfl⟩ := readCount_head hc
  rw [List.length_cons]
  unfold readGroups
  rw [hc, Res.ok_bind]
  dsimp only
  have hn : ∀ n, readGroups chk n [] = .ok [] := by intro n; unfold readGroups; cases n <;> rfl
  rcases h with ⟨h1, l, h2, rfl⟩ | ⟨h1, l, h2, rfl⟩
  · rw [if_pos h1, h2, Res.ok_bind, hn, Res.ok_bind]
  · rw [if_neg (by rw [h1]; decide), if_pos h1, h2, Res.ok_bind, hn, Res.ok_bind]

theorem readAttachment_framed {chk : Bool} {t body rest : Str} {l : List SigGroup} (h : Framed body t) (hg : readGroups chk body.length body = .ok l) :
    readAttachment chk (t ++ rest) = .ok (.quadlets l, rest) := by
  obtain ⟨c, rfl, h1, h2, h3⟩ := h
  unfold readAttachment
  have := readCount_ok (code := str% "-V") (by decide) ⟨h1, h3⟩ (body ++ rest)
  rw [List.append_assoc, this, Res.ok_bind]
  dsimp only
  rw [if_pos rfl, Nat.mul_div_cancel' h2, toUtf8_append, List.take_left, fromUtf8_toUtf8, Res.ok_bind, hg, Res.ok_bind, List.drop_left, fromUtf8_toUtf8, Res.ok_bind]

theorem readAttachment_ok {chk : Bool} {x : Piece} (h : x.Wellformed chk) (rest : Str) : readAttachment chk (x.attached ++ rest) = .ok (x.group, rest) := by
  cases h with
  | event p d h =>
    obtain ⟨hf, body, hb, h⟩ := h
    obtain ⟨u, h1, h2⟩ := readGroup_ok (h []) hf
    rw [List.append_nil] at h1
    exact readAttachment_framed hb (readGroups_one h1 (.inl ⟨rfl, _, h2, rfl⟩))
  | transaction t g c d h =>
    obtain ⟨k, a, b, rfl, hk, ha, hb⟩ := h
    unfold readAttachment
    rw [show (k ++ (a ++ b)) ++ rest = k ++ (a ++ (b ++ rest)) by simp, readCount_ok (by decide) hk, Res.ok_bind]
    dsimp only
    rw [if_neg (by decide), if_pos rfl]
    unfold readCouples readCouples
    rw [readItem_ok ha, Res.ok_bind]
    dsimp only
    rw [readItem_ok hb, Res.ok_bind, Res.ok_bind, Res.ok_bind]
  | credential t g sig d h =>
    obtain ⟨hf, body, k, p, k', i, n, d, g, hb, rfl, hk, hp, hk', hi, hn, hd, h⟩ := h
    obtain ⟨u, h1, h2⟩ := readGroup_ok (h []) hf
    rw [List.append_nil] at h1
    refine readAttachment_framed hb (readGroups_one (readCount_ok (by decide) hk _) (.inr ⟨rfl, _, ?_, rfl⟩))
    dsimp only
    unfold readProofs readProofs
    rw [readItem_ok hp, Res.ok_bind]
    dsimp only
    rw [readCount_ok (by decide) hk', Res.ok_bind]
    dsimp only
    rw [if_neg (by simp), readItem_ok hi, Res.ok_bind]
    dsimp only
    rw [readItem_ok hn, Res.ok_bind]
    dsimp only
    rw [readItem_ok hd, Res.ok_bind]
    dsimp only
    rw [h1, Res.ok_bind]
    dsimp only
    rw [if_neg (by simp), h2, Res.ok_bind, Res.ok_bind]

theorem readMessages_more {chk : Bool} {fl : Str → Option Str} : ∀ {n m : Nat} {t : Str} {l : List Msg}, n ≤ m → readMessages chk fl n t = .ok l →
    readMessages chk fl m t = .ok l := by
  intro n
  induction n with
  | zero =>
    intro m t l hm h
    cases t with
    | nil => unfold readMessages at h ⊢; cases m <;> exact h
    | cons c t => unfold readMessages at h; cases h
  | succ n ih =>
    intro m t l hm h
    cases m with
    | zero => omega
    | succ m =>
      cases t with
      | nil => unfold readMessages at h ⊢; exact h
      | cons c t =>
        unfold readMessages at h ⊢
        split at h
        · rename_i hc
          rw [if_pos hc]
          split at h
          · cases h
          · rename_i v rest hp
            obtain ⟨l', h1, h⟩ := Res.bind_eq_ok.mp h
            rw [ih (by omega) h1, Res.ok_bind]
            exact h
        · rename_i hc
          rw [if_neg hc]
          obtain ⟨g, hg, h⟩ := Res.bind_eq_ok.mp h
          obtain ⟨l', h1, h⟩ := Res.bind_eq_ok.mp h
          rw [hg, Res.ok_bind, ih (by omega) h1, Res.ok_bind]
          exact h

theorem readMessages_attachment {chk : Bool} {fl : Str → Option Str} {x : Piece} (h : x.Wellformed chk) {rest : Str} {l : List Msg} {n : Nat}
    (hr : readMessages chk fl n rest = .ok l) : readMessages chk fl (n + 1) (x.attached ++ rest) = .ok (.group x.group (.ok x.attached) :: l) := by
  have ha := readAttachment_ok h rest
  have ha' := ha
  unfold readAttachment at ha'
  obtain ⟨c, hc, -⟩ := Res.bind_eq_ok.mp ha'
  obtain ⟨u, hu⟩ := readCount_head hc
  rw [hu]
  unfold readMessages
  rw [if_neg (by simp), ← hu, ha, Res.ok_bind]
  dsimp only
  rw [hr, Res.ok_bind, List.length_append, Nat.add_sub_cancel, List.take_left]

theorem readMessages_message {chk : Bool} {fl : Str → Option Str} {x : Piece} (h : x.Wellformed chk) {rest : Str} {l : List Msg} {n : Nat}
    (hr : readMessages chk fl n rest = .ok l) : readMessages chk fl (n + 2) (x.whole ++ rest) = .ok (x.parsed ++ l) := by
  have hd : ∃ proto, Document proto x.text := by
    cases h with
    | event p d h => exact ⟨_, d⟩
    | transaction t g c d h => exact ⟨_, d⟩
    | credential t g sig d h => exact ⟨_, d⟩
  obtain ⟨proto, o, h1, h2, h3⟩ := hd
  generalize ho : ((str% "v", Value.str (versionText proto ⟨1, 0⟩ (str% "JSON") (toUtf8 x.text).length)) :: o) = o' at h1 h2 h3
  unfold Piece.whole
  rw [List.append_assoc]
  have hp := parseVal_obj (fl := fl) (fun _ h => h.elim) h2 (fuel := (x.text ++ (x.attached ++ rest)).length + 1) (depth := jsonDepth) (r := x.attached ++ rest)
    (by rw [← h1]; simp; omega) (by unfold jsonDepth; omega)
  rw [← h1] at hp
  obtain ⟨u, hu⟩ : ∃ u, x.text ++ (x.attached ++ rest) = '{' :: u := by
    rw [h1, Value.toJson]; exact ⟨_, rfl⟩
  rw [hu] at hp ⊢
  unfold readMessages
  rw [if_pos (by simp), hp]
  dsimp only
  rw [readMessages_attachment h hr, Res.ok_bind, ← h1]
  rfl

theorem Spec.Piece.Wellformed.long {chk : Bool} {x : Piece} (h : x.Wellformed chk) : 1 ≤ x.attached.length ∧ 1 ≤ x.text.length := by
  constructor
  · have ha := readAttachment_ok h []
    rw [List.append_nil] at ha
    unfold readAttachment at ha
    obtain ⟨c, hc, -⟩ := Res.bind_eq_ok.mp ha
    obtain ⟨u, hu⟩ := readCount_head hc
    rw [hu]; simp
  · have hd : ∃ proto, Document proto x.text := by
      cases h with
      | event p d h => exact ⟨_, d⟩
      | transaction t g c d h => exact ⟨_, d⟩
      | credential t g sig d h => exact ⟨_, d⟩
    obtain ⟨proto, o, h1, h2, h3⟩ := hd
    generalize ho : ((str% "v", Value.str (versionText proto ⟨1, 0⟩ (str% "JSON") (toUtf8 x.text).length)) :: o) = o' at h1 h2 h3
    rw [h1, Value.toJson]; simp

/-- The reader is what a verifier may expect. -/
theorem readStream_ok {E : Env} (h : E.parse = readStream E.chk E.fl) : ReadsStreams E := by
  constructor
  · rw [h]; rfl
  · intro x rest l hx hr
    rw [h] at hr ⊢
    unfold readStream at hr ⊢
    rw [fromUtf8_toUtf8, Res.ok_bind] at hr ⊢
    have := hx.long
    exact readMessages_more (by simp [Piece.whole]; omega) (readMessages_message hx hr)
  · intro x rest l hx hr
    rw [h] at hr ⊢
    unfold readStream at hr ⊢
    rw [fromUtf8_toUtf8, Res.ok_bind] at hr ⊢
    have := hx.long
    exact readMessages_more (by simp; omega) (readMessages_attachment hx hr)

/-! ## Verifiers with a parser of streams -/

theorem Spec.ReadsStreams.reads {E : Env} (h : ReadsStreams E) {x : Piece} (hx : x.Wellformed E.chk) : ReadsAs E x.attached x.group := by
  have := h.attachment x [] [] hx h.nothing
  rw [List.append_nil] at this
  exact ⟨_, _, this⟩

theorem Spec.ReadsStreams.ingest {E : Env} (h : ReadsStreams E) {x : Piece} (hx : x.Wellformed E.chk) (fuel : Nat) (st : Store) (deep verify : Option Bool) :
    Sample.ingest E fuel st x.whole deep verify = ingestLoop E fuel deep verify st x.parsed [] := by
  have := h.message x [] [] hx h.nothing
  rw [List.append_nil, List.append_nil] at this
  unfold Sample.ingest
  rw [this]

theorem Spec.ReadsStreams.ingests {E : Env} (h : ReadsStreams E) {fuel : Nat} {deep verify : Option Bool} {st st' : Store} {xs : List Piece}
    (ht : Takes E fuel deep verify st xs st') (hx : ∀ x ∈ xs, x.Wellformed E.chk) : Ingests E fuel deep verify st (xs.map Piece.whole) st' := by
  induction ht with
  | none => exact .none _
  | one st' st'' xs x before next ih =>
    rw [List.map_append, List.map_singleton]
    refine .one _ _ _ _ _ (ih fun y hy => hx y (by simp [hy])) ?_
    rw [h.ingest (hx x (by simp))]
    exact next

end Keride
