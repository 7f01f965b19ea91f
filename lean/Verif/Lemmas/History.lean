/-
The log a controller makes: it is valid, and every verifier accepts its events one after the other.
-/
import Verif.Lemmas.Accept
import Verif.Lemmas.Resend
import Verif.Lemmas.DeepLog
import Verif.Lemmas.Stream
import Verif.Props.KelAgree

namespace Keride.Sample

open Matter Spec Props Saider

/-- A log that is valid, that verifiers accept event by event, and that is read back. -/
structure Logged (E : Env) (pre : Str) (log : List Entry) : Prop where
  valid : ValidLog E.H E.C E.chk E.fl pre log
  accept : ∀ a e b, log = a ++ e :: b → ∀ st : Store, List.Forall₂ (Reads E.fl) (st.kels pre) a →
    ∃ q prior, Sadder.said E.chk e.sad = .ok q ∧ checkKeyEvent E st e.sad e.groups = .ok ⟨pre, a.length, q, false, prior⟩
  reads : ∀ e ∈ log, ∀ rest, Serder.newWithRaw E.fl (e.sad.raw ++ toUtf8 rest) = .ok e.sad
  text : ∀ e ∈ log, ∃ t, e.sad.raw = toUtf8 t
  ordinary : ∀ e ∈ log, Ordinary e.sad

/-- What is known of a controller's log. -/
structure Sound (E : Env) (pre : Str) (log : List Entry) (ks nks : KeySet) : Prop extends Logged E pre log where
  usable : Usable ks
  est : ∃ est, LatestEst log est ∧ Controls E ks est.sad ∧ ∃ ts, nks.digersQb64 E = .ok ts ∧ field (str% "n") est.sad.ked = some (.arr (ts.map .str))

mutual

theorem proper_mono {F G : Str → Prop} (hFG : ∀ t, F t → G t) : ∀ v, Proper F v → Proper G v
  | .null, _ => by simp [Proper]
  | .bool _, _ => by simp [Proper]
  | .int i, h => by simpa [Proper] using h
  | .float t, h => by
    rw [Proper] at h ⊢
    exact hFG t h
  | .str _, _ => by simp [Proper]
  | .arr a, h => by
    rw [Proper] at h ⊢
    exact properArr_mono hFG a h
  | .obj o, h => by
    rw [Proper] at h ⊢
    exact ⟨h.1, properObj_mono hFG o h.2⟩

theorem properArr_mono {F G : Str → Prop} (hFG : ∀ t, F t → G t) : ∀ l, ProperArr F l → ProperArr G l
  | [], _ => by simp [ProperArr]
  | v :: l, h => by
    rw [ProperArr] at h ⊢
    exact ⟨proper_mono hFG v h.1, properArr_mono hFG l h.2⟩

theorem properObj_mono {F G : Str → Prop} (hFG : ∀ t, F t → G t) : ∀ l, ProperObj F l → ProperObj G l
  | [], _ => by simp [ProperObj]
  | (k, v) :: l, h => by
    rw [ProperObj] at h ⊢
    exact ⟨proper_mono hFG v h.1, properObj_mono hFG l h.2⟩

end

theorem plain_decimal {v : Value} (h : Plain v) : Proper IsDecimal v := by
  exact proper_mono (fun _ h => h.elim) v h

theorem split_snoc {α : Type} {l a b : List α} {x e : α} (h : l ++ [x] = a ++ e :: b) : (b = [] ∧ e = x ∧ a = l) ∨ ∃ b', l = a ++ e :: b' := by
  rcases List.eq_nil_or_concat b with rfl | ⟨b', y, rfl⟩
  · left
    have := List.append_inj' h rfl
    exact ⟨rfl, by simpa using this.2.symm, this.1.symm⟩
  · right
    rw [List.concat_eq_append, ← List.cons_append, ← List.append_assoc] at h
    exact ⟨b', (List.append_inj' h rfl).1⟩

/-- A store that holds a log. -/
theorem held {fl : Str → Option Str} {log : List Entry} (pre : Str) (h1 : ∀ e ∈ log, ∀ rest, Serder.newWithRaw fl (e.sad.raw ++ toUtf8 rest) = .ok e.sad)
    (h2 : ∀ e ∈ log, ∃ t, e.sad.raw = toUtf8 t) : ∃ st : Store, List.Forall₂ (Reads fl) (st.kels pre) log := by
  have : ∃ l : List Str, List.Forall₂ (Reads fl) l log := by
    induction log with
    | nil => exact ⟨[], .nil⟩
    | cons e log ih =>
      obtain ⟨l, hl⟩ := ih (fun e he => h1 e (by simp [he])) (fun e he => h2 e (by simp [he]))
      obtain ⟨t, ht⟩ := h2 e (by simp)
      refine ⟨t :: l, .cons ?_ hl⟩
      have := h1 e (by simp) []
      unfold Reads
      rw [← ht]
      simpa [toUtf8] using this
  obtain ⟨l, hl⟩ := this
  exact ⟨⟨fun _ => l, fun _ => [], []⟩, hl⟩

/-- One more event. -/
theorem Logged.snoc {E : Env} (hH : HashOk E.H) {pre : Str} {log : List Entry} {e : Entry} (h : log = [] ∨ Logged E pre log) (hlen : log.length < 2 ^ 32)
    (hacc : ∀ st : Store, List.Forall₂ (Reads E.fl) (st.kels pre) log →
      ∃ q prior, Sadder.said E.chk e.sad = .ok q ∧ checkKeyEvent E st e.sad e.groups = .ok ⟨pre, log.length, q, false, prior⟩)
    (hreads : ∀ rest, Serder.newWithRaw E.fl (e.sad.raw ++ toUtf8 rest) = .ok e.sad) (htext : ∃ t, e.sad.raw = toUtf8 t) (hord : Ordinary e.sad) :
    Logged E pre (log ++ [e]) := by
  have g1 : ∀ x ∈ log ++ [e], ∀ rest, Serder.newWithRaw E.fl (x.sad.raw ++ toUtf8 rest) = .ok x.sad := by
    intro x hx
    rcases List.mem_append.mp hx with hx | hx
    · rcases h with rfl | h
      · simp at hx
      · exact h.reads x hx
    · rw [List.mem_singleton.mp hx]; exact hreads
  have g2 : ∀ x ∈ log ++ [e], ∃ t, x.sad.raw = toUtf8 t := by
    intro x hx
    rcases List.mem_append.mp hx with hx | hx
    · rcases h with rfl | h
      · simp at hx
      · exact h.text x hx
    · rw [List.mem_singleton.mp hx]; exact htext
  refine ⟨?_, ?_, g1, g2, ?_⟩
  · obtain ⟨st, hst⟩ := held pre (fun x hx => g1 x (by simp [hx])) (fun x hx => g2 x (by simp [hx])) (log := log)
    obtain ⟨q, prior, -, hc⟩ := hacc st hst
    have := hreads []
    refine checkKeyEvent_valid (E := E) (st := st) (c := ⟨pre, log.length, q, false, prior⟩) hH this hc hst (h.imp id fun h => h.valid) ?_ rfl
    have := hst.length_eq
    dsimp only
    omega
  · intro a x b hx st hst
    rcases split_snoc hx with ⟨-, rfl, rfl⟩ | ⟨b', hb⟩
    · exact hacc st hst
    · rcases h with rfl | h
      · simp at hb
      · exact h.accept a x b' hb st hst
  · intro x hx
    rcases List.mem_append.mp hx with hx | hx
    · rcases h with rfl | h
      · simp at hx
      · exact h.ordinary x hx
    · rw [List.mem_singleton.mp hx]; exact hord

theorem Sound.snoc {E : Env} (hH : HashOk E.H) {pre : Str} {log : List Entry} {ks nks ks' nks' : KeySet} {e : Entry}
    (h : log = [] ∨ Sound E pre log ks nks) (hlen : log.length < 2 ^ 32)
    (hacc : ∀ st : Store, List.Forall₂ (Reads E.fl) (st.kels pre) log →
      ∃ q prior, Sadder.said E.chk e.sad = .ok q ∧ checkKeyEvent E st e.sad e.groups = .ok ⟨pre, log.length, q, false, prior⟩)
    (hreads : ∀ rest, Serder.newWithRaw E.fl (e.sad.raw ++ toUtf8 rest) = .ok e.sad) (htext : ∃ t, e.sad.raw = toUtf8 t) (hord : Ordinary e.sad)
    (hu : Usable ks')
    (hest : ∃ est, LatestEst (log ++ [e]) est ∧ Controls E ks' est.sad ∧
      ∃ ts, nks'.digersQb64 E = .ok ts ∧ field (str% "n") est.sad.ked = some (.arr (ts.map .str))) : Sound E pre (log ++ [e]) ks' nks' :=
  ⟨Logged.snoc hH (h.imp id fun h => h.toLogged) hlen hacc hreads htext hord, hu, hest⟩

theorem latest_snoc {log : List Entry} {est e : Entry} (h : LatestEst log est) (he : ¬ Establishes e.sad) : LatestEst (log ++ [e]) est := by
  obtain ⟨a, b, rfl, h1, h2⟩ := h
  refine ⟨a, b ++ [e], by simp, h1, ?_⟩
  intro x hx
  rcases List.mem_append.mp hx with hx | hx
  · exact h2 x hx
  · rw [List.mem_singleton.mp hx]; exact he

theorem latest_unique {log : List Entry} {e e' : Entry} (h : LatestEst log e) (h' : LatestEst log e') : e = e' := by
  obtain ⟨a, b, rfl, h1, h2⟩ := h
  obtain ⟨a', b', hs, h1', h2'⟩ := h'
  rcases List.append_eq_append_iff.mp hs with ⟨c, rfl, hc⟩ | ⟨c, rfl, hc⟩
  · cases c with
    | nil => simpa using (List.cons.inj hc).1
    | cons x c =>
      rw [List.cons_append] at hc
      have hc := (List.cons.inj hc).2
      exact absurd h1' (h2 e' (by rw [hc]; simp))
  · cases c with
    | nil => simpa using (List.cons.inj hc).1.symm
    | cons x c =>
      rw [List.cons_append] at hc
      have hc := (List.cons.inj hc).2
      exact absurd h1 (h2' e (by rw [hc]; simp))

theorem keys_length {E : Env} {ks : KeySet} {keys : List Str} (hkeys : ks.verfersQb64 E = .ok keys) : keys.length = ks.keys.length := by
  unfold KeySet.verfersQb64 KeySet.verfers KeySet.signers at hkeys
  obtain ⟨l, hl, hkeys⟩ := Res.bind_eq_ok.mp hkeys
  obtain ⟨l', hl', hl⟩ := Res.bind_eq_ok.mp hl
  cases hl
  have a := (Res.mapList_ok.mp hl').length_eq
  have b := (Res.mapList_ok.mp hkeys).length_eq
  simp only [List.length_map] at b
  omega

theorem history_sound {E : Env} (hC : CryptoOk E.C) (hH : HashOk E.H) {pre : Str} {log : List Entry} {ks nks : KeySet}
    (h : History E pre log ks nks) (hlen : log.length ≤ 2 ^ 32) : Sound E pre log ks nks := by
  induction h with
  | incept ks nks keys ndigs sith nsith toad wits cnfg data version kind intive s pre rnd sigs usable own next built names reached signed sendable =>
    obtain ⟨vs, tx, kt, nt, bt, th, nth, pre', hb, hsn, hth, hnth, htS, hntS, -⟩ := incept_ok (c := str% "E") (by decide) built
    have hcov : ∀ t, Tholder.newWithSith E.chk (jsonRead E.fl) (sith.getD (majority 1 keys.length)) = .ok t → Covers t keys.length := by
      intro t ht
      obtain ⟨t', h1, h2⟩ := reached
      rw [htS] at h1
      rw [keys_length own]
      rw [hth] at ht
      cases ht
      cases h1
      exact h2
    have ht : HasText (str% "t") (str% "icp") s := by
      unfold HasText
      rw [hb.fields _ (by decide) (by decide) (by decide)]; simp [field, icpDoc]
    obtain ⟨o', ho', hv⟩ := hb.first
    refine Sound.snoc (log := []) (ks := ks) (nks := nks) hH (.inl rfl) (by simp) ?_ ?_ ?_ ?_ usable ?_
    · intro st hst
      have hst : st.kels pre = [] := by
        cases hk : st.kels pre with
        | nil => rfl
        | cons a b => rw [hk] at hst; cases hst
      obtain ⟨k1, k2⟩ := accept_icp hC usable own (c := str% "E") (by decide) built hcov signed names hst
      exact ⟨pre, none, k1, k2⟩
    · exact hb.reads sendable.plain sendable.depth sendable.small E.fl
    · exact ⟨_, hb.raw⟩
    · exact ⟨o', ho', hv, ho' ▸ plain_decimal sendable.plain⟩
    · refine ⟨⟨s, [.controller sigs]⟩, ⟨[], [], rfl, .inl ht, by simp⟩, ⟨⟨keys, own, ?_⟩, reached⟩, ndigs, next, ?_⟩
      · rw [hb.fields _ (by decide) (by decide) (by decide)]; simp [field, icpDoc, texts]
      · rw [hb.fields _ (by decide) (by decide) (by decide)]; simp [field, icpDoc, texts]
  | interact pre log ks nks prev dig data version kind s rnd sigs before last prior built signed sendable ih =>
    simp only [List.length_append, List.length_singleton] at hlen
    have ih := ih (by omega)
    obtain ⟨est, hest, hctl, hts⟩ := ih.est
    obtain ⟨vs, tx, hb, hsn, h1, -⟩ := interact_ok (by change log.length < _; omega) built
    obtain ⟨o', ho', hv⟩ := hb.first
    refine Sound.snoc hH (.inr ih) (by omega) ?_ ?_ ?_ ?_ ih.usable ?_
    · intro st hst
      obtain ⟨q, t, k1, k2⟩ := accept_ixn hC hst ih.valid (by omega) last hest prior ih.usable hctl built signed
      exact ⟨q, _, k1, k2⟩
    · exact hb.reads sendable.plain sendable.depth sendable.small E.fl
    · exact ⟨_, hb.raw⟩
    · exact ⟨o', ho', hv, ho' ▸ plain_decimal sendable.plain⟩
    · refine ⟨est, latest_snoc hest ?_, hctl, hts⟩
      have ht : field (str% "t") s.ked = some (.str (str% "ixn")) := by rw [hb.fields _ (by decide) (by decide)]; simp [field]
      rintro (h | h) <;> (unfold HasText at h; rw [ht] at h; simp at h)
  | rotate pre log ks nks nnks prev est dig keys ndigs sith nsith toad wits cuts adds data version kind intive s rnd sigs before last prior usable own next
      built reached latest pledged signed sendable ih =>
    simp only [List.length_append, List.length_singleton] at hlen
    have ih := ih (by omega)
    obtain ⟨est', hest', hctl, ts, hts, hfn⟩ := ih.est
    obtain ⟨vs, tx, kt, nt, bt, th, nth, hb, hsn, h1, hth, hnth, htS, hntS, -⟩ := rotate_ok (by omega) built
    have hcov : ∀ t, Tholder.newWithSith E.chk (jsonRead E.fl) (sith.getD (majority 1 keys.length)) = .ok t → Covers t keys.length := by
      intro t ht
      obtain ⟨t', h1, h2⟩ := reached
      rw [htS] at h1
      rw [keys_length own]
      rw [hth] at ht
      cases ht
      cases h1
      exact h2
    have ht : HasText (str% "t") (str% "rot") s := by
      unfold HasText
      rw [hb.fields _ (by decide) (by decide)]; simp [field]
    have heq : est = est' := latest_unique latest hest'
    subst heq
    obtain ⟨o', ho', hv⟩ := hb.first
    refine Sound.snoc hH (.inr ih) (by omega) ?_ ?_ ?_ ?_ usable ?_
    · intro st hst
      obtain ⟨q, t, k1, k2⟩ := accept_rot hC hH hst ih.valid (by omega) last latest prior usable ⟨⟨ts, hts, hfn⟩, pledged⟩ own built hcov signed
      exact ⟨q, _, k1, k2⟩
    · exact hb.reads sendable.plain sendable.depth sendable.small E.fl
    · exact ⟨_, hb.raw⟩
    · exact ⟨o', ho', hv, ho' ▸ plain_decimal sendable.plain⟩
    · refine ⟨⟨s, [.controller sigs]⟩, ⟨log, [], rfl, .inr ht, by simp⟩, ⟨⟨keys, own, ?_⟩, reached⟩, ndigs, next, ?_⟩
      · rw [hb.fields _ (by decide) (by decide)]; simp [field, texts]
      · rw [hb.fields _ (by decide) (by decide)]; simp [field, texts]

/-! ## Delivery -/

/-- Events at different places have different SAIDs. -/
theorem Logged.distinct {E : Env} {pre : Str} {log : List Entry} (h : Logged E pre log) {a b a' b' : List Entry} {e e' : Entry}
    (h1 : log = a ++ e :: b) (h2 : log = a' ++ e' :: b') {q : Str} (hq : Sadder.said E.chk e.sad = .ok q) (hq' : Sadder.said E.chk e'.sad = .ok q)
    (hc : ¬ Collision E.H (str% "E") (LogText log) (LogText log)) : a.length = a'.length := by
  have ho : ∀ x ∈ a ++ [e] ++ (a' ++ [e']), Ordinary x.sad := by
    intro x hx
    apply h.ordinary
    simp only [List.append_assoc, List.mem_append, List.mem_cons, List.not_mem_nil, or_false] at hx
    rcases hx with hx | hx | hx | hx
    · rw [h1]; simp [hx]
    · rw [h1]; simp [hx]
    · rw [h2]; simp [hx]
    · rw [h2]; simp [hx]
  have := C57_agree E.H E.C E.chk E.fl pre a b a' b' e e' (h1 ▸ h.valid) (h2 ▸ h.valid) ho q hq hq'
  have := (this.resolve_right fun k => hc (k.mono (fun _ ⟨y, k1, k2⟩ => ⟨y, by rw [h1]; simp at k1 ⊢; tauto, k2⟩)
    fun _ ⟨y, k1, k2⟩ => ⟨y, by rw [h2]; simp at k1 ⊢; tauto, k2⟩)).length_eq
  simpa using this

/-- The store after a log was added to. -/
def withEvents (st : Store) (pre : Str) (l : List Str) : Store := { st with kels := fun p => if p = pre then st.kels p ++ l else st.kels p }

theorem withEvents_nil (st : Store) (pre : Str) : withEvents st pre [] = st := by
  unfold withEvents
  simp

theorem withEvents_cons (st : Store) (pre t : Str) (l : List Str) : withEvents (st.insertKeyEvent pre t) pre l = withEvents st pre (t :: l) := by
  unfold withEvents Store.insertKeyEvent append
  congr 1
  funext p
  dsimp only
  split <;> simp

theorem sniff_of {fl : Str → Option Str} {raw : Bytes} {s : Sad} (h : Serder.newWithRaw fl raw = .ok s) : ∃ r, sniff raw = .ok r ∧ r.ident = str% "KERI" := by
  have h' := h
  unfold Serder.newWithRaw Serder.new at h
  obtain ⟨s', h1, -⟩ := Res.bind_eq_ok.mp h
  have h1 : Sadder.populateFromRaw fl (str% "E") raw = .ok s' := h1
  unfold Sadder.populateFromRaw at h1
  obtain ⟨r, hr, -⟩ := Res.bind_eq_ok.mp h1
  unfold Sadder.inhale at hr
  obtain ⟨i, hi, -⟩ := Res.bind_eq_ok.mp hr
  exact ⟨i, hi, serder_sniff h' hi⟩

theorem Logged.reread {E : Env} {pre : Str} {log : List Entry} (h : Logged E pre log) {deep : Option Bool} {texts : List Str} {a b : List Entry}
    (hlog : log = a ++ b) (hk : KeepsLog E deep texts a) : List.Forall₂ (Reads E.fl) texts a := by
  subst hlog
  have hr : ∀ e ∈ a, ∀ rest, Serder.newWithRaw E.fl (e.sad.raw ++ toUtf8 rest) = .ok e.sad := fun e he => h.reads e (by simp [he])
  clear h
  unfold KeepsLog at hk
  induction hk with
  | nil => exact .nil
  | cons hx hk ih =>
    obtain ⟨t, g, rfl, h2, -⟩ := hx
    refine .cons ?_ (ih fun e he => hr e (by simp [he]))
    have := hr _ List.mem_cons_self g
    rw [h2, ← toUtf8_append] at this
    exact this

/-- A verifier that has the first events of a log, with their signatures, can verify them deeply. -/
theorem Logged.deepLog {E : Env} {pre : Str} {log : List Entry} (h : Logged E pre log) {deep : Option Bool} (hd : deep ≠ some false) {a b : List Entry}
    (hlog : log = a ++ b) {st : Store} (hk : KeepsLog E deep (st.kels pre) a) : DeepLog E st pre := by
  have hst := h.reread hlog hk
  intro k text ht
  obtain ⟨e, he, t, g, rfl, hraw, hg⟩ := forall₂_get hk ht
  obtain ⟨a1, a2, rfl, rfl⟩ : ∃ a1 a2, a = a1 ++ e :: a2 ∧ a1.length = k := by
    have hlt := (List.getElem?_eq_some_iff.mp he).1
    refine ⟨a.take k, a.drop (k + 1), ?_, by rw [List.length_take]; omega⟩
    have : e = a[k] := (List.getElem?_eq_some_iff.mp he).2.symm
    rw [this, List.getElem_cons_drop, List.take_append_drop]
  have hl := hst.length_eq
  rw [List.length_append, List.length_cons] at hl
  let st0 : Store := { st with kels := fun p => if p = pre then (st.kels pre).take a1.length else st.kels p }
  have hst0 : List.Forall₂ (Reads E.fl) (st0.kels pre) a1 := by
    have : st0.kels pre = (st.kels pre).take a1.length := if_pos rfl
    rw [this]
    have := List.forall₂_take a1.length hst
    rw [List.take_left' rfl] at this
    exact this
  have hext : Extends st0 st := by
    refine ⟨fun p => ?_, fun _ => List.prefix_refl _, List.prefix_refl _⟩
    by_cases hp : p = pre
    · subst hp
      have : st0.kels p = (st.kels p).take a1.length := if_pos rfl
      rw [this]
      exact List.take_prefix _ _
    · have : st0.kels p = st.kels p := if_neg hp
      rw [this]
  obtain ⟨q, prior, hq, hck⟩ := h.accept a1 e (a2 ++ b) (by rw [hlog]; simp) st0 hst0
  have hck := checkKeyEvent_ext hext hck (by dsimp only; omega)
  obtain ⟨e', he', hr⟩ := forall₂_get hst ht
  rw [he] at he'
  cases he'
  exact ⟨e.sad, e.groups, _, hr, attachedQuadlets_of hraw (hg hd), hck, rfl, rfl, rfl⟩

theorem Logged.deepens {E : Env} (hH : HashOk E.H) {pre : Str} {log : List Entry} (h : Logged E pre log) {deep : Option Bool} {st : Store} {fuel : Nat}
    (hlen : log.length ≤ 2 ^ 32) (hd : deep = some true → log.length ≤ fuel ∧ KeepsLog E deep (st.kels pre) log) : Deepens E st deep fuel pre := by
  by_cases hdd : deep = some true
  · obtain ⟨h1, h2⟩ := hd hdd
    have hl : (st.kels pre).length = log.length := h2.length_eq
    exact DeepLog.deepens hH (fun _ => h.deepLog (by rw [hdd]; simp) (List.append_nil log).symm h2) (by omega) (by omega)
  · exact .off hdd

/-- A verifier that has the events of a log before an event accepts the event. -/
theorem Logged.accepts {E : Env} {pre : Str} {log : List Entry} (h : Logged E pre log) (hH : HashOk E.H) (href : ∀ st t, E.refuses st t = false)
    {fuel : Nat} {deep verify : Option Bool} (hv : verify ≠ some false) (hlen : log.length ≤ 2 ^ 32) {e : Entry} {t g : Str} (hraw : e.sad.raw = toUtf8 t)
    {a b : List Entry} (hlog : log = a ++ e :: b) {st : Store} (hst : List.Forall₂ (Reads E.fl) (st.kels pre) a)
    (hd : deep = some true → log.length ≤ fuel + 1 ∧ KeepsLog E deep (st.kels pre) a) :
    Accepts E (fuel + 1) deep verify st ⟨t, g, .quadlets e.groups⟩ (st.insertKeyEvent pre (t ++ g)) := by
  have hmem : e ∈ log := by rw [hlog]; simp
  have hread : Serder.newWithRaw E.fl (toUtf8 t) = .ok e.sad := by
    have := h.reads e hmem []
    rw [hraw] at this
    simpa [toUtf8] using this
  refine ⟨fun v hnew => ?_, holds_key (x := ⟨t, g, .quadlets e.groups⟩) hraw hread⟩
  obtain ⟨q, prior, hq, hck⟩ := h.accept a e b hlog st hst
  obtain ⟨info, hi, hident⟩ := sniff_of hread
  have hsays : Says E ⟨t, g, .quadlets e.groups⟩ q := .inl ⟨e.sad, hread, hq⟩
  have htype : ∃ ilk, field (str% "t") e.sad.ked = some (.str ilk) ∧ (ilk = str% "icp" ∨ ilk = str% "rot" ∨ ilk = str% "ixn") := by
    rcases ValidLog.types h.valid e hmem with k | k | k
    · exact ⟨_, k, .inl rfl⟩
    · exact ⟨_, k, .inr (.inl rfl)⟩
    · exact ⟨_, k, .inr (.inr rfl)⟩
  obtain ⟨ilk, hilk, hk⟩ := htype
  have hpre := (checkKeyEvent_ok hck).1
  obtain ⟨w, hw⟩ : ∃ w, verifyKeyEvent E st deep (fuel + 1) e.sad e.groups (q :: v) = .ok (false, w) := by
    by_cases hdd : deep = some true
    · obtain ⟨d1, d2⟩ := hd hdd
      subst hdd
      have hal : a.length < log.length := by rw [hlog]; simp
      obtain ⟨w, hw, -⟩ := deep_log hH (h.deepLog (by simp) hlog d2) (fuel + 1) e.sad e.groups _ _ (q :: v) hread hck rfl rfl (by dsimp only; omega) (by dsimp only; omega)
      exact ⟨w, hw⟩
    · refine ⟨q :: v, ?_⟩
      rw [verifyKeyEvent_shallow hdd, hck, Res.ok_bind]
      rw [show confirm E st ⟨pre, a.length, q, false, prior⟩ = .ok () from rfl, Res.ok_bind]
  have hone : ingestOne E st (fuel + 1) deep verify (.payload t) (some (.group (.quadlets e.groups) (.ok g))) v = .ok (.keyEvent pre (t ++ g), w) := by
    unfold ingestOne
    rw [show (Msg.payload t).payloadText = .ok t from rfl, Res.ok_bind]
    dsimp only
    rw [hi, Res.ok_bind, if_pos hident]
    unfold ingestSerder
    rw [hread, Res.ok_bind, hq, Res.ok_bind]
    dsimp only
    rw [show (Msg.group (.quadlets e.groups) (.ok g)).cesrGroup = .ok (.quadlets e.groups, .ok g) from rfl, Res.ok_bind, text_index hilk, Res.ok_bind,
      show (Value.str ilk).toStr = .ok ilk from rfl, Res.ok_bind, if_pos hk]
    dsimp only
    unfold verifyOrSeen
    rw [verify_default hv, if_pos (by simpa using hnew q hsays), hw, Res.ok_bind]
    dsimp only
    rw [if_neg (by simp), hpre, Res.ok_bind]
    unfold storedText
    rw [hraw, fromUtf8_toUtf8, Res.ok_bind, Res.ok_bind, Res.ok_bind]
  refine ⟨w, fun rest => ?_, fun q' hq' => ?_⟩
  · rw [show (⟨t, g, .quadlets e.groups⟩ : Piece).parsed ++ rest = .payload t :: .group (.quadlets e.groups) (.ok g) :: rest from rfl, ingestLoop, hone]
    dsimp only
    unfold perform
    dsimp only
    unfold tryInsert
    rw [href, if_neg (by simp)]
  · rcases (verifyKeyEvent_ok hw).2 q' hq' with h | h
    · rcases List.mem_cons.mp h with rfl | h
      · exact .inr (.inl hsays)
      · exact .inl h
    · exact .inr (.inr h)

theorem Logged.messageText {E : Env} {pre : Str} {log : List Entry} (h : Logged E pre log) (l : List (Entry × Str × Str)) (hl : ∀ x ∈ l, x.1.sad.raw = toUtf8 x.2.1)
    (hlog : log = l.map Prod.fst) {t : Str} (ht : LogText log t) : MessageText E.fl (l.map fun x => x.2.1 ++ x.2.2) t := by
  obtain ⟨e, he, ht⟩ := ht
  have he' := he
  rw [hlog] at he'
  obtain ⟨x, hx, rfl⟩ := List.mem_map.mp he'
  refine ⟨_, List.mem_map_of_mem hx, x.1.sad, .inl ?_, ht⟩
  have := h.reads x.1 he x.2.2
  rw [hl x hx, ← toUtf8_append] at this
  exact this

theorem Logged.deliver {E : Env} {pre : Str} {log : List Entry} (h : Logged E pre log) (hH : HashOk E.H) (hc : ¬ Collision E.H (str% "E") (LogText log) (LogText log))
    (href : ∀ st t, E.refuses st t = false) {fuel : Nat} {deep verify : Option Bool} (hv : verify ≠ some false) (hlen : log.length ≤ 2 ^ 32)
    (l : List (Entry × Str × Str)) (hl : ∀ x ∈ l, x.1.sad.raw = toUtf8 x.2.1) (a : List Entry) (hlog : log = a ++ l.map Prod.fst) (st : Store)
    (hst : List.Forall₂ (Reads E.fl) (st.kels pre) a) (v : List Str) (hver : ∀ q ∈ v, ∃ a1 e a2, a = a1 ++ e :: a2 ∧ Sadder.said E.chk e.sad = .ok q)
    (hd : deep = some true → log.length ≤ fuel + 1 ∧ KeepsLog E deep (st.kels pre ++ l.map fun x => x.2.1 ++ x.2.2) log) :
    ingestLoop E (fuel + 1) deep verify st (l.flatMap fun x => [.payload x.2.1, .group (.quadlets x.1.groups) (.ok x.2.2)]) v =
      (withEvents st pre (l.map fun x => x.2.1 ++ x.2.2), .ok ()) := by
  induction l generalizing a st v with
  | nil =>
    rw [List.flatMap_nil, List.map_nil, withEvents_nil]
    rfl
  | cons x l ih =>
    obtain ⟨e, t, g⟩ := x
    have hraw : e.sad.raw = toUtf8 t := hl (e, t, g) (by simp)
    have hmem : e ∈ log := by rw [hlog]; simp
    obtain ⟨q, prior, hq, hck⟩ := h.accept a e (l.map Prod.fst) hlog st hst
    have hread : Serder.newWithRaw E.fl (toUtf8 t) = .ok e.sad := by
      have := h.reads e hmem []
      rw [hraw] at this
      simpa [toUtf8] using this
    have hstored : Reads E.fl (t ++ g) e := by
      have := h.reads e hmem g
      rw [hraw, ← toUtf8_append] at this
      exact this
    obtain ⟨info, hi, hident⟩ := sniff_of hread
    have hnew : v.contains q = false := by
      rw [Bool.eq_false_iff]
      intro hin
      rw [List.contains_iff_mem] at hin
      obtain ⟨a1, e', a2, ha, hq'⟩ := hver q hin
      have := h.distinct (a := a) (b := l.map Prod.fst) (e := e) (a' := a1) (b' := a2 ++ e :: l.map Prod.fst) (e' := e') hlog
        (by rw [hlog, ha]; simp) hq hq' hc
      rw [ha] at this
      simp at this
    have hgd : verify.getD true = true := by
      cases verify with
      | none => rfl
      | some b => cases b with
        | true => rfl
        | false => exact absurd rfl hv
    have htype : ∃ ilk, field (str% "t") e.sad.ked = some (.str ilk) ∧ (ilk = str% "icp" ∨ ilk = str% "rot" ∨ ilk = str% "ixn") := by
      rcases ValidLog.types h.valid e hmem with k | k | k
      · exact ⟨_, k, .inl rfl⟩
      · exact ⟨_, k, .inr (.inl rfl)⟩
      · exact ⟨_, k, .inr (.inr rfl)⟩
    obtain ⟨ilk, hilk, hk⟩ := htype
    have hpre := (checkKeyEvent_ok hck).1
    obtain ⟨w, hw, hwin⟩ : ∃ w, verifyKeyEvent E st deep (fuel + 1) e.sad e.groups (q :: v) = .ok (false, w) ∧ ∀ q' ∈ w, q' ∈ q :: v ∨ KeptSaid E st pre q' := by
      by_cases hdd : deep = some true
      · obtain ⟨d1, d2⟩ := hd hdd
        subst hdd
        have hsl := hst.length_eq
        have hka : KeepsLog E (some true) (st.kels pre) a := by
          have := List.forall₂_take a.length d2
          rw [hlog, List.take_left' rfl, ← hsl, List.take_left' rfl] at this
          exact this
        have hal : a.length < log.length := by rw [hlog]; simp
        exact deep_log hH (h.deepLog (by simp) hlog hka) (fuel + 1) e.sad e.groups _ _ (q :: v) hread hck rfl rfl (by dsimp only; omega) (by dsimp only; omega)
      · refine ⟨q :: v, ?_, fun q' hq' => .inl hq'⟩
        rw [verifyKeyEvent_shallow hdd, hck, Res.ok_bind]
        rw [show confirm E st ⟨pre, a.length, q, false, prior⟩ = .ok () from rfl, Res.ok_bind]
    have hone : ingestOne E st (fuel + 1) deep verify (.payload t) (some (.group (.quadlets e.groups) (.ok g))) v = .ok (.keyEvent pre (t ++ g), w) := by
      unfold ingestOne
      rw [show (Msg.payload t).payloadText = .ok t from rfl, Res.ok_bind]
      dsimp only
      rw [hi, Res.ok_bind, if_pos hident]
      unfold ingestSerder
      rw [hread, Res.ok_bind, hq, Res.ok_bind]
      dsimp only
      rw [show (Msg.group (.quadlets e.groups) (.ok g)).cesrGroup = .ok (.quadlets e.groups, .ok g) from rfl, Res.ok_bind, text_index hilk, Res.ok_bind,
        show (Value.str ilk).toStr = .ok ilk from rfl, Res.ok_bind, if_pos hk]
      dsimp only
      unfold verifyOrSeen
      rw [hgd, hnew, if_pos (by rfl), hw, Res.ok_bind]
      dsimp only
      rw [if_neg (by simp), hpre, Res.ok_bind]
      unfold storedText
      rw [hraw, fromUtf8_toUtf8, Res.ok_bind, Res.ok_bind, Res.ok_bind]
    rw [List.flatMap_cons, List.cons_append, List.cons_append, List.nil_append]
    unfold ingestLoop
    rw [hone]
    dsimp only
    unfold perform
    dsimp only
    unfold tryInsert
    rw [href, if_neg (by simp)]
    dsimp only
    rw [ih (fun x hx => hl x (by simp [hx])) (a ++ [e]) (by rw [hlog]; simp) (st.insertKeyEvent pre (t ++ g)) ?_ w ?_ ?_]
    · rw [withEvents_cons]
      rfl
    · have : (st.insertKeyEvent pre (t ++ g)).kels pre = st.kels pre ++ [t ++ g] := by
        unfold Store.insertKeyEvent append
        simp
      rw [this]
      exact List.rel_append hst (.cons hstored .nil)
    · intro q' hq'
      rcases hwin q' hq' with hq' | ⟨x, hx, s, hs, hqs⟩
      · rcases List.mem_cons.mp hq' with rfl | hq'
        · exact ⟨a, e, [], rfl, hq⟩
        · obtain ⟨a1, e1, a2, ha, k⟩ := hver q' hq'
          exact ⟨a1, e1, a2 ++ [e], by rw [ha]; simp, k⟩
      · obtain ⟨i, hi⟩ := List.getElem?_of_mem hx
        obtain ⟨e1, he1, hr1⟩ := forall₂_get hst hi
        unfold Reads at hr1
        rw [hs] at hr1
        cases hr1
        obtain ⟨a1, a2, ha⟩ := List.append_of_mem (List.mem_of_getElem? he1)
        exact ⟨a1, e1, a2 ++ [e], by rw [ha]; simp, hqs⟩
    · intro hdd
      obtain ⟨d1, d2⟩ := hd hdd
      have : (st.insertKeyEvent pre (t ++ g)).kels pre = st.kels pre ++ [t ++ g] := by
        unfold Store.insertKeyEvent append
        simp
      exact ⟨d1, by rw [this]; simpa using d2⟩

/-! ## Other verifiers -/

theorem same_incept {E E' : Env} (h : SameCode E E') : incept E' = incept E := by
  cases E; cases E'; obtain ⟨rfl, rfl, rfl, rfl⟩ := h; rfl

theorem same_interact {E E' : Env} (h : SameCode E E') : interact E' = interact E := by
  cases E; cases E'; obtain ⟨rfl, rfl, rfl, rfl⟩ := h; rfl

theorem same_rotate {E E' : Env} (h : SameCode E E') : rotate E' = rotate E := by
  cases E; cases E'; obtain ⟨rfl, rfl, rfl, rfl⟩ := h; rfl

theorem same_verfers {E E' : Env} (h : SameCode E E') : KeySet.verfersQb64 E' = KeySet.verfersQb64 E := by
  cases E; cases E'; obtain ⟨rfl, rfl, rfl, rfl⟩ := h; rfl

theorem same_digers {E E' : Env} (h : SameCode E E') : KeySet.digersQb64 E' = KeySet.digersQb64 E := by
  cases E; cases E'; obtain ⟨rfl, rfl, rfl, rfl⟩ := h; rfl

theorem same_matching {E E' : Env} (h : SameCode E E') (v : M) (i : Nat) (l : List M) : KeySet.matching E' v i l = KeySet.matching E v i l := by
  induction l generalizing i with
  | nil => rfl
  | cons d l ih =>
    unfold KeySet.matching
    rw [h.chk, h.H]
    simp only [ih]

theorem same_signLoop {E E' : Env} (h : SameCode E E') (rnd : Nat) (ser : Bytes) (ds : Option (List M)) (i : Nat) (l : List Signer) :
    KeySet.signLoop E' rnd ser ds i l = KeySet.signLoop E rnd ser ds i l := by
  induction l generalizing i with
  | nil => rfl
  | cons s l ih =>
    unfold KeySet.signLoop
    rw [h.chk, h.C]
    simp only [ih, same_matching h]

theorem same_sign {E E' : Env} (h : SameCode E E') : KeySet.sign E' = KeySet.sign E := by
  funext rnd k ser ds
  unfold KeySet.sign KeySet.signers
  rw [h.C]
  simp only [same_signLoop h]

theorem History.other {E E' : Env} (hE : SameCode E E') {pre : Str} {log : List Entry} {ks nks : KeySet} (h : History E pre log ks nks) :
    History E' pre log ks nks := by
  induction h with
  | incept ks nks keys ndigs sith nsith toad wits cnfg data version kind intive s pre rnd sigs usable own next built names reached signed sendable =>
    refine .incept ks nks keys ndigs sith nsith toad wits cnfg data version kind intive s pre rnd sigs usable ?_ ?_ ?_ names ?_ ?_ sendable
    · rw [same_verfers hE]; exact own
    · rw [same_digers hE]; exact next
    · rw [same_incept hE]; exact built
    · rw [hE.chk, hE.fl]; exact reached
    · unfold MadeBy; rw [same_sign hE]; exact signed
  | interact pre log ks nks prev dig data version kind s rnd sigs before last prior built signed sendable ih =>
    refine .interact pre log ks nks prev dig data version kind s rnd sigs ih last ?_ ?_ ?_ sendable
    · rw [hE.chk]; exact prior
    · rw [same_interact hE]; exact built
    · unfold MadeBy; rw [same_sign hE]; exact signed
  | rotate pre log ks nks nnks prev est dig keys ndigs sith nsith toad wits cuts adds data version kind intive s rnd sigs before last prior usable own next
      built reached latest pledged signed sendable ih =>
    refine .rotate pre log ks nks nnks prev est dig keys ndigs sith nsith toad wits cuts adds data version kind intive s rnd sigs ih last ?_ usable ?_ ?_
      ?_ ?_ latest ?_ ?_ sendable
    · rw [hE.chk]; exact prior
    · rw [same_verfers hE]; exact own
    · rw [same_digers hE]; exact next
    · rw [same_rotate hE]; exact built
    · rw [hE.chk, hE.fl]; exact reached
    · rw [hE.chk, hE.fl]; exact pledged
    · unfold MadeBy; rw [same_sign hE]; exact signed

end Keride.Sample
