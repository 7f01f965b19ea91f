/-
Deep verification of transaction events in a store that is not trusted.
-/
import Verif.Lemmas.Deep
import Verif.Lemmas.Tel

namespace Keride

open Matter Spec Sample

section
variable {E : Env} {st : Store}

/-- What deep verification of a transaction event does. -/
theorem deepTel_step (hH : HashOk E.H) {fuel : Nat} {s : Sad} {l : List (M × M)} {v : List Str} {r : Bool × List Str} {pre : Str}
    {raw : Bytes} (hread : Serder.newWithRaw E.fl raw = .ok s) (hp : Serder.pre s = .ok pre) (hlen : (st.tels pre).length < 2 ^ 32)
    (h : verifyTransactionEvent E st (some true) (fuel + 1) s l v = .ok r) :
    ∃ n q src apre av, Serder.sn s = .ok n ∧ Sadder.said E.chk s = .ok q ∧
      verifyAnchor E st (some true) fuel apre (Prod.fst src) (Prod.snd src) s v = .ok (true, av) ∧
      (n = (st.tels pre).length ∨ ∃ t e, (st.tels pre)[n]? = some t ∧ Serder.newWithRaw E.fl (toUtf8 t) = .ok e ∧ Sadder.said E.chk e = .ok q) ∧
      ((HasText (str% "t") (str% "vcp") s ∧ Has vcpFields s ∧ n = 0 ∧ Derived E.H pre s ∧ HasText (str% "ii") apre s ∧ r.2 = av) ∨
       (∃ ri rt r0, HasText (str% "ri") ri s ∧ (st.tels ri)[0]? = some rt ∧ Serder.newWithRaw E.fl (toUtf8 rt) = .ok r0 ∧
        HasText (str% "ii") apre r0 ∧ SelfAddressed E.H E.chk s ∧
        ((HasText (str% "t") (str% "iss") s ∧ Has issFields s ∧ n = 0 ∧ r.2 = av) ∨
         (HasText (str% "t") (str% "rev") s ∧ Has revFields s ∧ 1 ≤ n ∧ n ≤ (st.tels pre).length ∧ ∃ pt p z, (st.tels pre)[n - 1]? = some pt ∧
            Serder.newWithRaw E.fl (toUtf8 pt) = .ok p ∧ Sadder.said E.chk p = .ok z ∧ HasText (str% "p") z s ∧
            (z ∈ av ∧ r.2 = av ∨ ∃ g r', attachedCouples E pt p = .ok g ∧
              verifyTransactionEvent E st (some true) fuel p g (z :: av) = .ok r' ∧ r.2 = r'.2))))) := by
  obtain ⟨-, o, hko, -, -⟩ := read_doc hread
  unfold verifyTransactionEvent at h
  rw [hp, Res.ok_bind] at h
  obtain ⟨px, hpx, h⟩ := Res.bind_eq_ok.mp h
  obtain ⟨sn, hsn, h⟩ := Res.bind_eq_ok.mp h
  obtain ⟨tv, ht1, h⟩ := Res.bind_eq_ok.mp h
  obtain ⟨ilk, ht2, h⟩ := Res.bind_eq_ok.mp h
  have ht : HasText (str% "t") ilk s := index_text ht1 ht2
  obtain ⟨said, hsaid, h⟩ := Res.bind_eq_ok.mp h
  obtain ⟨ri, hri, h⟩ := Res.bind_eq_ok.mp h
  split at h
  · cases h
  obtain ⟨src, -, h⟩ := Res.bind_eq_ok.mp h
  obtain ⟨labels, hlab, h⟩ := Res.bind_eq_ok.mp h
  obtain ⟨has, hhas, h⟩ := Res.bind_eq_ok.mp h
  split at h
  · cases h
  rename_i hb
  have hb : has = true := by simpa using hb
  subst hb
  dsimp only at h
  obtain ⟨apre, hap, h⟩ := Res.bind_eq_ok.mp h
  obtain ⟨⟨ab, av⟩, ha, h⟩ := Res.bind_eq_ok.mp h
  split at h
  · cases h
  rename_i hb
  have hb : ab = true := by simpa using hb
  subst hb
  obtain ⟨w, hw, h⟩ := Res.bind_eq_ok.mp h
  have hex : r = w ∧ (w.1 = true → ∃ t e, (st.tels pre)[sn % 2 ^ 32]? = some t ∧ Serder.newWithRaw E.fl (toUtf8 t) = .ok e ∧ Sadder.said E.chk e = .ok said) := by
    split at h
    · obtain ⟨t, g1, h⟩ := Res.bind_eq_ok.mp h
      obtain ⟨e, g2, h⟩ := Res.bind_eq_ok.mp h
      obtain ⟨q, g3, h⟩ := Res.bind_eq_ok.mp h
      split at h
      · cases h
      · rename_i hq
        rw [← not_not.mp hq] at g3
        cases h
        exact ⟨rfl, fun _ => ⟨t, e, Res.ofOption_eq_ok.mp g1, g2, g3⟩⟩
    · rename_i hw
      cases h
      exact ⟨rfl, fun h => absurd h hw⟩
  obtain ⟨rfl, hex⟩ := hex
  refine ⟨sn, said, src, apre, av, hsn, hsaid, ha, ?_, ?_⟩
  · -- the place
    split at hw
    · split at hw
      · cases hw
      rename_i h0
      have h0 := not_not.mp h0
      subst h0
      cases hw
      by_cases hc : (st.tels pre).length = 0
      · exact .inl hc.symm
      · exact .inr (hex (decide_eq_true hc))
    · split at hw
      · cases hw
      split at hw
      · cases hw
      rename_i n1 n2
      obtain ⟨i, hi, hw⟩ := Res.bind_eq_ok.mp hw
      obtain ⟨pt, hpt, hw⟩ := Res.bind_eq_ok.mp hw
      obtain ⟨p, hpp, hw⟩ := Res.bind_eq_ok.mp hw
      obtain ⟨q, hq, hw⟩ := Res.bind_eq_ok.mp hw
      obtain ⟨z, -, hw⟩ := Res.bind_eq_ok.mp hw
      obtain ⟨y1, hy1, hw⟩ := Res.bind_eq_ok.mp hw
      obtain ⟨y2, hy2, hw⟩ := Res.bind_eq_ok.mp hw
      split at hw
      · cases hw
      cases hw
      by_cases hc : sn = (st.tels pre).length
      · exact .inl hc
      · have := hex (decide_eq_true hc)
        rw [Nat.mod_eq_of_lt (by omega)] at this
        exact .inr this
  by_cases c1 : ilk = str% "vcp"
  · subst c1
    unfold anchorOf at hap
    rw [if_pos rfl] at hap
    obtain ⟨g, hg, hap⟩ := Res.bind_eq_ok.mp hap
    split at hap
    · cases hap
    rename_i hb
    have hb : g = true := by simpa using hb
    subst hb
    obtain ⟨x, hx, hap⟩ := Res.bind_eq_ok.mp hap
    rw [if_pos (.inl rfl)] at hw
    split at hw
    · cases hw
    rename_i h0
    cases hw
    refine .inl ⟨ht, ?_, not_not.mp h0, prefix_derived hH hread hp hpx hg, index_text hx hap, rfl⟩
    unfold telLabels at hlab
    rw [if_pos rfl] at hlab
    cases hlab
    exact labels_has hko hhas (by decide)
  · have c2 : ilk = str% "iss" ∨ ilk = str% "rev" := by
      unfold registryOf at hri
      rw [if_neg c1] at hri
      split at hri
      · assumption
      · cases hri
    have hrt : HasText (str% "ri") ri s := by
      unfold registryOf at hri
      rw [if_neg c1, if_pos c2] at hri
      obtain ⟨x, hx, hri⟩ := Res.bind_eq_ok.mp hri
      exact index_text hx hri
    unfold anchorOf at hap
    rw [if_neg c1, if_pos c2] at hap
    obtain ⟨g, hg, hap⟩ := Res.bind_eq_ok.mp hap
    split at hap
    · cases hap
    rename_i hb
    have hb : g = true := by simpa using hb
    subst hb
    obtain ⟨rt, hrt', hap⟩ := Res.bind_eq_ok.mp hap
    obtain ⟨r0, hr, hap⟩ := Res.bind_eq_ok.mp hap
    obtain ⟨x, hx, hap⟩ := Res.bind_eq_ok.mp hap
    refine .inr ⟨ri, rt, r0, hrt, Res.ofOption_eq_ok.mp hrt', hr, index_text hx hap, self_addressed hH hread hg, ?_⟩
    rcases c2 with rfl | rfl
    · left
      rw [if_pos (.inr rfl)] at hw
      split at hw
      · cases hw
      rename_i h0
      cases hw
      refine ⟨ht, ?_, not_not.mp h0, rfl⟩
      unfold telLabels at hlab
      rw [if_neg (by decide), if_pos rfl] at hlab
      cases hlab
      exact labels_has hko hhas (by decide)
    · right
      rw [if_neg (by decide)] at hw
      split at hw
      · cases hw
      rename_i n1
      split at hw
      · cases hw
      rename_i n2
      obtain ⟨i, hi, hw⟩ := Res.bind_eq_ok.mp hw
      obtain ⟨pt, hpt, hw⟩ := Res.bind_eq_ok.mp hw
      obtain ⟨p, hpp, hw⟩ := Res.bind_eq_ok.mp hw
      obtain ⟨q, hq, hw⟩ := Res.bind_eq_ok.mp hw
      obtain ⟨z, hz, hw⟩ := Res.bind_eq_ok.mp hw
      obtain ⟨y1, hy1, hw⟩ := Res.bind_eq_ok.mp hw
      obtain ⟨y2, hy2, hw⟩ := Res.bind_eq_ok.mp hw
      split at hw
      · cases hw
      rename_i e1
      have e1 := not_not.mp e1
      subst e1
      cases hw
      refine ⟨ht, ?_, by omega, by omega, pt, p, q, ?_, hpp, hq, index_text hy1 hy2, ?_⟩
      · unfold telLabels at hlab
        rw [if_neg (by decide), if_neg (by decide), if_pos rfl] at hlab
        cases hlab
        exact labels_has hko hhas (by decide)
      · have := Res.ofOption_eq_ok.mp hpt
        unfold subU32 at hi
        rw [Nat.mod_eq_of_lt (by omega)] at hi
        split at hi
        · cases hi
          exact this
        · omega
      · rw [show (some true).getD true = true from rfl, if_pos rfl] at hz
        split at hz
        · rename_i hm
          cases hz
          exact .inl ⟨by simpa using hm, rfl⟩
        · obtain ⟨g', hg', hz⟩ := Res.bind_eq_ok.mp hz
          obtain ⟨r', hr', hz⟩ := Res.bind_eq_ok.mp hz
          cases hz
          exact .inr ⟨g', r', hg', hr', rfl⟩

/-- An anchor that deep verification accepts is in a log that is valid up to it. -/
theorem deep_anchor (hH : HashOk E.H) {P : Sad → Prop} (hP : ∀ s, KeptIn E.fl st s → P s) (hf : FiledStore E.chk E.fl st)
    (hlen : ∀ p, (st.kels p).length < 2 ^ 32) {fuel : Nat} {ap : Str} {n d : M} {s : Sad} {v av : List Str}
    (hv : ∀ q ∈ v, ∀ pre, Done E st pre q) (h : verifyAnchor E st (some true) fuel ap n d s v = .ok (true, av)) :
    ((∃ a, (reliable E st).keys ap a ∧ Seals E.chk a s) ∧ ∀ q ∈ av, q ∈ v ∨ ∃ pre, DoneIn E st pre q) ∨ Circular E.H E.chk P := by
  obtain ⟨i', t', a', k1, k2, k3, k4⟩ := sealed_in h
  unfold verifyAnchor at h
  obtain ⟨i, hi, h⟩ := Res.bind_eq_ok.mp h
  obtain ⟨t, ht, h⟩ := Res.bind_eq_ok.mp h
  obtain ⟨a, ha, h⟩ := Res.bind_eq_ok.mp h
  obtain ⟨q, hq, h⟩ := Res.bind_eq_ok.mp h
  obtain ⟨u, -, h⟩ := Res.bind_eq_ok.mp h
  split at h
  · cases h
  obtain ⟨sl, -, h⟩ := Res.bind_eq_ok.mp h
  split at h
  · cases h
  rename_i si sn sd
  obtain ⟨w, hw, h⟩ := Res.bind_eq_ok.mp h
  have hav : av = w := by
    obtain ⟨x, hx, h⟩ := Res.bind_eq_ok.mp h
    obtain ⟨y, hy, h⟩ := Res.bind_eq_ok.mp h
    split at h
    · cases h
    obtain ⟨p, hp, h⟩ := Res.bind_eq_ok.mp h
    split at h
    · cases h
    obtain ⟨dd, hd, h⟩ := Res.bind_eq_ok.mp h
    exact (congrArg Prod.snd (Res.ok.inj h)).symm
  subst hav
  have ht := Res.ofOption_eq_ok.mp ht
  have hsl : Seals E.chk a s := by
    rw [hi] at k1
    cases k1
    rw [ht] at k2
    cases k2
    rw [ha] at k3
    cases k3
    exact k4
  rw [show (some true).getD false = true from rfl, if_pos rfl] at hw
  split at hw
  · rename_i hm
    cases hw
    have hm : q ∈ v := by simpa using hm
    obtain ⟨log, l1, l2⟩ := hv q hm ap _ t a ht ha hq
    exact .inl ⟨⟨a, ⟨_, t, log, ht, ha, l1, l2⟩, hsl⟩, fun q hq => .inl hq⟩
  · obtain ⟨g, hg, hw⟩ := Res.bind_eq_ok.mp hw
    obtain ⟨r, hr, hw⟩ := Res.bind_eq_ok.mp hw
    cases hw
    rcases deep_stored hH (fun text ht e he => hP e ⟨ap, text, ht, he⟩) (hf.log ap) (hlen ap) fuel (q :: v) _ t a g r ht ha hg (by
      intro y hy
      rcases List.mem_cons.mp hy with rfl | hy
      · exact .inl ⟨[], a, rfl, hq, trivial, nofun⟩
      · exact .inr (hv y hy ap)) hr with ⟨⟨log, l1, l2⟩, l3⟩ | h
    · refine .inl ⟨⟨a, ⟨_, t, log, ht, ha, l1, l2⟩, hsl⟩, fun y hy => ?_⟩
      rcases l3 y hy with hy | hy
      · rcases List.mem_cons.mp hy with rfl | hy
        · exact .inr ⟨ap, _, t, a, ht, ha, hq, log, l1, l2⟩
        · exact .inl hy
      · exact .inr ⟨ap, hy⟩
    · exact .inr h

/-- The transaction log up to a place is valid. -/
def TelTo (E : Env) (st : Store) (id : Str) (n : Nat) : Prop :=
  ∃ log, List.Forall₂ (fun t e => Serder.newWithRaw E.fl (toUtf8 t) = .ok e) ((st.tels id).take n) log ∧ ValidTel E.H E.chk (reliable E st) id log

theorem telValid_sn {H : Hash} {chk : Bool} {W : Known} {id : Str} {log : List Sad} (h : ValidTel H chk W id log) :
    ∀ (i : Nat) e, log[i]? = some e → Serder.sn e = .ok i := by
  induction h with
  | incept e a ii type ident sn _ _ _ _ _ =>
    intro i x hx
    cases i with
    | zero => cases hx; exact sn
    | succ i => cases hx
  | issue e ri type ident sn _ _ _ _ =>
    intro i x hx
    cases i with
    | zero => cases hx; exact sn
    | succ i => cases hx
  | revoke log prev e ri psaid before type ident sn _ _ _ _ _ _ _ ih =>
    intro i x hx
    by_cases hi : i < log.length
    · rw [List.getElem?_append_left hi] at hx
      exact ih i x hx
    · rw [List.getElem?_append_right (by omega)] at hx
      cases hk : i - log.length with
      | zero =>
        rw [hk] at hx
        cases hx
        rw [show i = log.length by omega]
        exact sn
      | succ j => rw [hk] at hx; cases hx

/-- A transaction event whose predecessors make a valid log continues it. -/
theorem deepTel_valid {s : Sad} {id apre : Str} {n : Nat} (hid : HasText (str% "i") id s) (hsn : Serder.sn s = .ok n)
    (hn : n ≤ (st.tels id).length)
    (ha : ∃ a, (reliable E st).keys apre a ∧ Seals E.chk a s)
    (h : (HasText (str% "t") (str% "vcp") s ∧ Has vcpFields s ∧ n = 0 ∧ Derived E.H id s ∧ HasText (str% "ii") apre s) ∨
       (∃ ri rt r0, HasText (str% "ri") ri s ∧ (st.tels ri)[0]? = some rt ∧ Serder.newWithRaw E.fl (toUtf8 rt) = .ok r0 ∧
        HasText (str% "ii") apre r0 ∧ SelfAddressed E.H E.chk s ∧
        ((HasText (str% "t") (str% "iss") s ∧ Has issFields s ∧ n = 0) ∨
         (HasText (str% "t") (str% "rev") s ∧ Has revFields s ∧ 1 ≤ n ∧ ∃ pt p z, (st.tels id)[n - 1]? = some pt ∧
            Serder.newWithRaw E.fl (toUtf8 pt) = .ok p ∧ Sadder.said E.chk p = .ok z ∧ HasText (str% "p") z s ∧ TelTo E st id n)))) :
    ∃ log, List.Forall₂ (fun t e => Serder.newWithRaw E.fl (toUtf8 t) = .ok e) ((st.tels id).take n) log ∧
      ValidTel E.H E.chk (reliable E st) id (log ++ [s]) := by
  obtain ⟨a, ha1, ha2⟩ := ha
  rcases h with ⟨h1, h2, rfl, h4, h5⟩ | ⟨ri, rt, r0, h1, h2, h3, h4, h5, ⟨k1, k2, rfl⟩ | ⟨k1, k2, k3, pt, p, z, k4, k5, k6, k7, log, l1, l2⟩⟩
  · exact ⟨[], .nil, .incept s a apre h1 hid hsn h2 h4 h5 ha1 ha2⟩
  · exact ⟨[], .nil, .issue s ri k1 hid hsn k2 h5 h1 ⟨r0, apre, a, ⟨rt, h2, h3⟩, h4, ha1, ha2⟩⟩
  · have hl : log.length = n := by
      rw [← l1.length_eq, List.length_take]
      omega
    have hlast : log.getLast? = some p := by
      rw [List.getLast?_eq_getElem?, hl]
      obtain ⟨y, hy1, hy2⟩ := forall₂_get l1 (i := n - 1) (x := pt) (by rw [List.getElem?_take_of_lt (by omega)]; exact k4)
      rw [k5] at hy2
      cases hy2
      exact hy1
    exact ⟨log, l1, .revoke log p s ri z l2 k1 hid (by rw [hsn, hl]) k2 h5 hlast k6 k7 h1 ⟨r0, apre, a, ⟨rt, h2, h3⟩, h4, ha1, ha2⟩⟩

theorem deepTel_stored (hH : HashOk E.H) {id : Str} {P : Sad → Prop} (hP : ∀ s, KeptIn E.fl st s → P s)
    (hPt : ∀ text ∈ st.tels id, ∀ e, Serder.newWithRaw E.fl (toUtf8 text) = .ok e → P e) (hf : FiledStore E.chk E.fl st)
    (hft : Filed E.chk E.fl id (st.tels id)) (hlen : ∀ p, (st.kels p).length < 2 ^ 32) (hlt : (st.tels id).length < 2 ^ 32)
    (hA : ∀ text ∈ st.tels id, ∀ e q, Serder.newWithRaw E.fl (toUtf8 text) = .ok e → Sadder.said E.chk e = .ok q →
      ∀ k, KeptIn E.fl st k → Sadder.said E.chk k ≠ .ok q) :
    ∀ (fuel : Nat) (v : List Str) (a : Nat) (text : Str) (e : Sad) (g : List (M × M)) (r : Bool × List Str), (st.tels id)[a]? = some text →
      Serder.newWithRaw E.fl (toUtf8 text) = .ok e → (∀ q ∈ v, ∀ pre, Done E st pre q) →
      (∀ q ∈ v, (∃ pre, DoneIn E st pre q) ∨ Leads E.H E.chk P q e) →
      verifyTransactionEvent E st (some true) fuel e g v = .ok r → TelTo E st id (a + 1) ∨ Circular E.H E.chk P := by
  have hkey : ∀ text ∈ st.tels id, ∀ e q, Serder.newWithRaw E.fl (toUtf8 text) = .ok e → Sadder.said E.chk e = .ok q → ∀ pre, Done E st pre q :=
    fun text ht e q he hq pre b u k h1 h2 h3 => absurd h3 (hA text ht e q he hq k ⟨pre, u, List.mem_of_getElem? h1, h2⟩)
  have hall : ∀ q, (∃ pre, DoneIn E st pre q) → ∀ pre, Done E st pre q := by
    rintro q ⟨pre, hq⟩ pre'
    by_cases hpp : pre' = pre
    · subst hpp
      exact hq.done (hf.log _)
    · obtain ⟨a, t, e, h1, h2, h3, -⟩ := hq
      intro b u k g1 g2 g3
      exact absurd (hf.apart pre' pre u t k e q (List.mem_of_getElem? g1) (List.mem_of_getElem? h1) g2 h2 g3 h3) hpp
  intro fuel
  induction fuel with
  | zero => intro v a text e g r _ _ _ _ h; cases h
  | succ fuel ih =>
    intro v a text e g r ha hread hv hl h
    obtain ⟨ha', -⟩ := List.getElem?_eq_some_iff.mp ha
    have hmem := List.mem_of_getElem? ha
    have hid := hft.own text hmem e hread
    obtain ⟨n, q, src, apre, av, hsn, hq, hanc, hplace, hcase⟩ := deepTel_step hH hread ((Props.C55_pre e id).mpr hid) hlt h
    have hplace : n = (st.tels id).length ∨ n = a := by
      rcases hplace with h | ⟨t, x, h1, h2, h3⟩
      · exact .inl h
      · exact .inr (hft.once n a t text x e q h1 ha h2 hread h3 hq)
    rcases deep_anchor hH hP hf hlen hv hanc with ⟨hkeys, hav⟩ | hc
    · have hav1 : ∀ y ∈ av, ∀ pre, Done E st pre y := fun y hy => (hav y hy).elim (hv y) (hall y)
      have fin : n = a → (∃ log, List.Forall₂ (fun t e => Serder.newWithRaw E.fl (toUtf8 t) = .ok e) ((st.tels id).take n) log ∧
          ValidTel E.H E.chk (reliable E st) id (log ++ [e])) → TelTo E st id (a + 1) := by
        rintro rfl ⟨log, l1, l2⟩
        refine ⟨log ++ [e], ?_, l2⟩
        rw [List.take_add_one, ha]
        exact List.rel_append l1 (.cons hread .nil)
      rcases hcase with ⟨h1, h2, h3, h4, h5, -⟩ | ⟨ri, rt, r0, h1, h2, h3, h4, h5, ⟨k1, k2, k3, -⟩ | ⟨k1, k2, k3, k3', pt, p, z, k4, k5, k6, k7, k8⟩⟩
      · have hna : n = a := by omega
        exact .inl (fin hna (deepTel_valid hid hsn (by omega) hkeys (.inl ⟨h1, h2, h3, h4, h5⟩)))
      · have hna : n = a := by omega
        exact .inl (fin hna (deepTel_valid hid hsn (by omega) hkeys (.inr ⟨ri, rt, r0, h1, h2, h3, h4, h5, .inl ⟨k1, k2, k3⟩⟩)))
      · have hrec : TelTo E st id (n - 1 + 1) ∨ Circular E.H E.chk P := by
          rcases k8 with ⟨k8, -⟩ | ⟨g', r', -, k9, -⟩
          · have : (∃ pre, DoneIn E st pre z) ∨ Leads E.H E.chk P z e := by
              rcases hav z k8 with h | h
              · exact hl z h
              · exact .inl h
            rcases this with ⟨pre, b, u, k, g1, g2, g3, -⟩ | h
            · exact absurd g3 (hA pt (List.mem_of_getElem? k4) p z k5 k6 k ⟨pre, u, List.mem_of_getElem? g1, g2⟩)
            · exact .inr (h.circle ⟨hPt text hmem e hread, h5⟩ k7)
          · refine ih (z :: av) (n - 1) pt p g' r' k4 k5 ?_ ?_ k9
            · intro y hy
              rcases List.mem_cons.mp hy with rfl | hy
              · exact hkey pt (List.mem_of_getElem? k4) p y k5 k6
              · exact hav1 y hy
            · intro y hy
              rcases List.mem_cons.mp hy with rfl | hy
              · exact .inr ⟨[], p, rfl, k6, trivial, nofun⟩
              · rcases hav y hy with hy | hy
                · exact (hl y hy).imp_right fun h => h.snoc ⟨hPt text hmem e hread, h5⟩ ⟨z, k6, k7⟩
                · exact .inl hy
        rcases hrec with hrec | hrec
        · rw [Nat.sub_add_cancel k3] at hrec
          have hna : n = a := by
            rcases hplace with h | h
            · obtain ⟨log, l1, l2⟩ := hrec
              rw [h, List.take_length] at l1
              obtain ⟨y, hy1, hy2⟩ := forall₂_get l1 ha
              rw [hread] at hy2
              cases hy2
              have := telValid_sn l2 a e hy1
              rw [hsn] at this
              exact Res.ok.inj this
            · exact h
          exact .inl (fin hna (deepTel_valid hid hsn k3' hkeys (.inr ⟨ri, rt, r0, h1, h2, h3, h4, h5, .inr ⟨k1, k2, k3, pt, p, z, k4, k5, k6, k7, hrec⟩⟩)))
        · exact .inr hrec
    · exact .inr hc

/-- Deep verification of a transaction event that comes in. -/
theorem deepTel_new (hH : HashOk E.H) {id : Str} {P : Sad → Prop} (hP : ∀ s, KeptIn E.fl st s → P s)
    (hPt : ∀ text ∈ st.tels id, ∀ e, Serder.newWithRaw E.fl (toUtf8 text) = .ok e → P e) (hf : FiledStore E.chk E.fl st)
    (hft : Filed E.chk E.fl id (st.tels id)) (hlen : ∀ p, (st.kels p).length < 2 ^ 32) (hlt : (st.tels id).length < 2 ^ 32)
    (hA : ∀ text ∈ st.tels id, ∀ e q, Serder.newWithRaw E.fl (toUtf8 text) = .ok e → Sadder.said E.chk e = .ok q →
      ∀ k, KeptIn E.fl st k → Sadder.said E.chk k ≠ .ok q)
    {fuel : Nat} {raw : Bytes} {s : Sad} {g : List (M × M)} {v : List Str} {r : Bool × List Str} {n : Nat} (hread : Serder.newWithRaw E.fl raw = .ok s)
    (hs : P s) (hid : HasText (str% "i") id s) (hsn : Serder.sn s = .ok n) (hv : ∀ q ∈ v, Sadder.said E.chk s = .ok q)
    (hAs : ∀ k q, KeptIn E.fl st k → Sadder.said E.chk s = .ok q → Sadder.said E.chk k ≠ .ok q)
    (h : verifyTransactionEvent E st (some true) fuel s g v = .ok r) :
    (∃ log, List.Forall₂ (fun t e => Serder.newWithRaw E.fl (toUtf8 t) = .ok e) ((st.tels id).take n) log ∧
      ValidTel E.H E.chk (reliable E st) id (log ++ [s])) ∨ Circular E.H E.chk P := by
  cases fuel with
  | zero => cases h
  | succ fuel =>
    have hall : ∀ q, (∃ pre, DoneIn E st pre q) → ∀ pre, Done E st pre q := by
      rintro q ⟨pre, hq⟩ pre'
      by_cases hpp : pre' = pre
      · subst hpp
        exact hq.done (hf.log _)
      · obtain ⟨a, t, e, h1, h2, h3, -⟩ := hq
        intro b u k g1 g2 g3
        exact absurd (hf.apart pre' pre u t k e q (List.mem_of_getElem? g1) (List.mem_of_getElem? h1) g2 h2 g3 h3) hpp
    have hv1 : ∀ q ∈ v, ∀ pre, Done E st pre q := fun q hq pre b u k h1 h2 h3 =>
      absurd h3 (hAs k q ⟨pre, u, List.mem_of_getElem? h1, h2⟩ (hv q hq))
    obtain ⟨m, q, src, apre, av, hsn', hq, hanc, hplace, hcase⟩ := deepTel_step hH hread ((Props.C55_pre s id).mpr hid) hlt h
    rw [hsn] at hsn'
    cases hsn'
    rcases deep_anchor hH hP hf hlen hv1 hanc with ⟨hkeys, hav⟩ | hc
    · rcases hcase with ⟨h1, h2, h3, h4, h5, -⟩ | ⟨ri, rt, r0, h1, h2, h3, h4, h5, ⟨k1, k2, k3, -⟩ | ⟨k1, k2, k3, k3', pt, p, z, k4, k5, k6, k7, k8⟩⟩
      · exact .inl (deepTel_valid hid hsn (by omega) hkeys (.inl ⟨h1, h2, h3, h4, h5⟩))
      · exact .inl (deepTel_valid hid hsn (by omega) hkeys (.inr ⟨ri, rt, r0, h1, h2, h3, h4, h5, .inl ⟨k1, k2, k3⟩⟩))
      · have hrec : TelTo E st id (n - 1 + 1) ∨ Circular E.H E.chk P := by
          rcases k8 with ⟨k8, -⟩ | ⟨g', r', -, k9, -⟩
          · rcases hav z k8 with h | ⟨pre, b, u, k, g1, g2, g3, -⟩
            · exact .inr (Leads.circle ⟨[], s, rfl, hv z h, trivial, nofun⟩ ⟨hs, h5⟩ k7)
            · exact absurd g3 (hA pt (List.mem_of_getElem? k4) p z k5 k6 k ⟨pre, u, List.mem_of_getElem? g1, g2⟩)
          · refine deepTel_stored hH hP hPt hf hft hlen hlt hA fuel (z :: av) (n - 1) pt p g' r' k4 k5 ?_ ?_ k9
            · intro y hy
              rcases List.mem_cons.mp hy with rfl | hy
              · exact fun pre b u k h1 h2 h3 => absurd h3 (hA pt (List.mem_of_getElem? k4) p y k5 k6 k ⟨pre, u, List.mem_of_getElem? h1, h2⟩)
              · exact (hav y hy).elim (hv1 y) (hall y)
            · intro y hy
              rcases List.mem_cons.mp hy with rfl | hy
              · exact .inr ⟨[], p, rfl, k6, trivial, nofun⟩
              · rcases hav y hy with hy | hy
                · exact .inr (Leads.snoc ⟨[], s, rfl, hv y hy, trivial, nofun⟩ ⟨hs, h5⟩ ⟨z, k6, k7⟩)
                · exact .inl hy
        rcases hrec with hrec | hrec
        · rw [Nat.sub_add_cancel k3] at hrec
          exact .inl (deepTel_valid hid hsn k3' hkeys (.inr ⟨ri, rt, r0, h1, h2, h3, h4, h5, .inr ⟨k1, k2, k3, pt, p, z, k4, k5, k6, k7, hrec⟩⟩))
        · exact .inr hrec
    · exact .inr hc

end

end Keride
