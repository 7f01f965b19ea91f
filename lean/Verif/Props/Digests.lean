/-
C111: next keys committed to with a digest that is not a Blake3-256 digest.
-/
import Verif.Props.Prerotation
import Verif.Props.Codes

namespace Keride.Props

open Matter Spec Sample

/-- A primitive whose text is read as a Blake3-256 digest is one. -/
theorem digest_code {chk : Bool} {d m : M} {u : Str} (h : qb64 chk d = .ok u) (h' : Matter.newWithQb64 u = .ok m) (hm : m.code = str% "E") : d.code = str% "E" := by
  have key : ∀ e ∈ sizageTable, e.1 ≠ [] ∧ (e.1.head? = some 'E' → e.1 = str% "E") := by decide
  have hmem : ∃ z, (d.code, z) ∈ sizageTable := by
    unfold qb64 infil at h
    dsimp only at h
    obtain ⟨z, hz, -⟩ := Res.bind_eq_ok.mp h
    unfold sizage at hz
    exact ⟨_, lookup_mem (Res.ofOption_eq_ok.mp hz)⟩
  obtain ⟨z, hz⟩ := hmem
  obtain ⟨k1, k2⟩ := key _ hz
  obtain ⟨p⟩ := exfil_ok h'
  refine k2 ?_
  cases hc : d.code with
  | nil => exact absurd hc k1
  | cons c cs =>
    have h1 := qb64_first h hc
    rw [p.split, hm] at h1
    exact h1.symm

theorem never_committed {H : Hash} {C : Crypto} {chk : Bool} {fl : Str → Option Str} {pre : Str} {a b : List Entry} {e : Entry}
    (h : ValidLog H C chk fl pre (a ++ e :: b)) (he : Establishes e.sad) (hn : ∀ t, Serder.ntholder chk fl e.sad = .ok (some t) → FewWeights t)
    (hd : ∀ digests, Serder.digers e.sad = .ok digests → ∀ d ∈ digests, d.code ≠ str% "E") : ∀ x ∈ b, ¬ Establishes x.sad := by
  intro x hx hest
  obtain ⟨u, y, w, rfl, h1, h2⟩ := first_of (P := fun x : Entry => Establishes x.sad) b ⟨x, hx, hest⟩
  have h : ValidLog H C chk fl pre ((a ++ e :: u) ++ y :: w) := by simpa using h
  obtain ⟨est, k1, k2⟩ := ValidLog.allowed h (by simp)
  have k3 : LatestEst (a ++ e :: u) e := ⟨a, u, rfl, he, h2⟩
  cases latest_unique k1 k3
  obtain ⟨-, g, -, k, ⟨digests, d, q, v, m1, m2, -, m4, m5⟩, -⟩ := rotation_signed hn k2 h1
  exact hd digests m1 d m2 (digest_code m4 m5 rfl)

/-- C111: when none of the digests of next keys in an establishment event is a Blake3-256 digest, no verifier ever has a rotation after it. -/
theorem C111_never (E : Env) (hH : HashOk E.H) (hist : List (Msg × Msg)) (st : Store) (h : Reach E hist st) (pre : Str)
    (hlen : (st.kels pre).length ≤ 2 ^ 32) (i j : Nat) (t t' : Str) (s s' : Sad) (hi : (st.kels pre)[i]? = some t) (hj : (st.kels pre)[j]? = some t')
    (hs : Serder.newWithRaw E.fl (toUtf8 t) = .ok s) (hs' : Serder.newWithRaw E.fl (toUtf8 t') = .ok s') (hest : Establishes s)
    (hfew : ∀ th, Serder.ntholder E.chk E.fl s = .ok (some th) → FewWeights th)
    (hd : ∀ digests, Serder.digers s = .ok digests → ∀ d ∈ digests, d.code ≠ str% "E") (hij : i < j) : ¬ HasText (str% "t") (str% "rot") s' := by
  obtain ⟨log, h1, h2⟩ := C56_log E hH hist st h pre hlen
  obtain ⟨e, he, _, _, _, -, -, -, -, hr⟩ := forall₂_get h1 hi
  obtain ⟨e', he', _, _, _, -, -, -, -, hr'⟩ := forall₂_get h1 hj
  rw [hs] at hr
  rw [hs'] at hr'
  cases hr
  cases hr'
  rcases h2 with rfl | h2
  · simp at he
  · have hlt : i < log.length := (List.getElem?_eq_some_iff.mp he).1
    have hsplit : log = log.take i ++ e :: log.drop (i + 1) := by
      conv_lhs => rw [← List.take_append_drop i log, List.drop_eq_getElem_cons hlt]
      rw [(List.getElem?_eq_some_iff.mp he).2]
    rw [hsplit] at h2
    intro hrot
    refine never_committed h2 hest hfew hd e' ?_ (.inr hrot)
    refine List.mem_of_getElem? (i := j - (i + 1)) ?_
    rw [List.getElem?_drop, show i + 1 + (j - (i + 1)) = j by omega]
    exact he'

/-- An identifier with one key, which commits to the next key with a digest of the code; and the rotation to that key. -/
def World.committing (code : Str) : Res (Sad × (Msg × Msg) × Sad × (Msg × Msg)) := do
  let a ← World.ks [1]
  let b ← World.ks [3]
  let c ← World.ks [5]
  let x ← a.verfersQb64 (World.env [])
  let z ← b.verfersQb64 (World.env [])
  let k ← Res.orPanic z[0]?
  let y ← Diger.newWithSer (World.env []).H (toUtf8 k) (some code)
  let t ← Matter.qb64 true y
  let n ← c.digersQb64 (World.env [])
  let i ← Sample.incept (World.env []) x none (some [t]) none none none none none none none (some (str% "E")) none none
  let p ← Serder.pre i
  let d ← Sadder.said true i
  let r ← Sample.rotate (World.env []) p z d none 1 none (some n) none none none none none none none none none
  let m ← World.signed (.ok a) (.ok i)
  let l ← World.signed (.ok b) (.ok r)
  .ok (i, m, r, l)

/-- The one next key of the inception is the one key of the rotation, by a digest with the code; the inception is accepted, and then the rotation is or is not. -/
structure Commits (E : Env) (code : Str) (icp rot : Sad) (m l : Msg × Msg) (accepted : Bool) : Prop where
  listed : ∃ k y d, Serder.verfers rot = .ok [k] ∧ Matter.qb64 E.chk k = .ok y ∧ Diger.newWithSer E.H (toUtf8 y) (some code) = .ok d ∧ Serder.digers icp = .ok [d] ∧ d.code = code
  first : ∃ t, m.1 = .payload t ∧ toUtf8 t = icp.raw
  second : ∃ t, l.1 = .payload t ∧ toUtf8 t = rot.raw
  incepted : (ingestLoop E 5 none none Store.empty [m.1, m.2] []).2 = .ok ()
  rotated : (ingestLoop E 5 none none Store.empty [m.1, m.2, l.1, l.2] []).2.isOk = accepted

def World.payloadIs (m : Msg × Msg) (raw : Bytes) : Bool :=
  match m.1 with
  | .payload t => decide (toUtf8 t = raw)
  | _ => false

theorem World.payloadIs_ok {m : Msg × Msg} {raw : Bytes} (h : World.payloadIs m raw = true) : ∃ t, m.1 = .payload t ∧ toUtf8 t = raw := by
  unfold World.payloadIs at h
  split at h
  · rename_i t ht
    exact ⟨t, ht, of_decide_eq_true h⟩
  · cases h

def World.commits (code : Str) (accepted : Bool) : Bool :=
  World.holds (World.committing code) fun x =>
    (World.holds (Serder.verfers x.2.2.1) fun ks => World.holds (Serder.digers x.1) fun ds =>
      match ks with
      | [k] => World.holds (Matter.qb64 true k) fun y => World.holds (Diger.newWithSer (World.env []).H (toUtf8 y) (some code)) fun d => decide (ds = [d]) && decide (d.code = code)
      | _ => false) &&
    World.payloadIs x.2.1 x.1.raw && World.payloadIs x.2.2.2 x.2.2.1.raw &&
    (ingestLoop (World.env []) 5 none none Store.empty [x.2.1.1, x.2.1.2] []).2.isOk &&
    decide ((ingestLoop (World.env []) 5 none none Store.empty [x.2.1.1, x.2.1.2, x.2.2.2.1, x.2.2.2.2] []).2.isOk = accepted)

theorem World.commits_ok {code : Str} {accepted : Bool} (h : World.commits code accepted = true) :
    ∃ icp rot m l, Commits (World.env []) code icp rot m l accepted := by
  unfold World.commits at h
  obtain ⟨⟨i, m, r, l⟩, -, h⟩ := World.holds_ok h
  simp only [Bool.and_eq_true, decide_eq_true_eq] at h
  obtain ⟨⟨⟨⟨h1, h2⟩, h3⟩, h4⟩, h5⟩ := h
  obtain ⟨⟨⟩, h4⟩ := Res.isOk_iff.mp h4
  refine ⟨i, r, m, l, ?_, World.payloadIs_ok h2, World.payloadIs_ok h3, h4, h5⟩
  obtain ⟨ks, k1, h1⟩ := World.holds_ok h1
  obtain ⟨ds, k2, h1⟩ := World.holds_ok h1
  split at h1
  · obtain ⟨y, k3, h1⟩ := World.holds_ok h1
    obtain ⟨d, k4, h1⟩ := World.holds_ok h1
    rw [Bool.and_eq_true, decide_eq_true_eq, decide_eq_true_eq] at h1
    obtain ⟨k5, k6⟩ := h1
    exact ⟨_, y, d, k1, k3, k4, k5 ▸ k2, k6⟩
  · cases h1

/-- C111 is false, for every other digest the library has: an identifier whose next key is listed by such a digest is accepted, and the rotation to that
key, signed by it, is refused. -/
theorem C111_false : ∀ code ∈ digestCodes, code ≠ str% "E" →
    ∃ E icp rot m l, HashOk E.H ∧ CryptoOk E.C ∧ Commits E code icp rot m l false := by
  have key : ∀ code ∈ digestCodes, code ≠ str% "E" → World.commits code false = true := by decide +kernel
  intro code h1 h2
  obtain ⟨icp, rot, m, l, h⟩ := World.commits_ok (key code h1 h2)
  exact ⟨World.env [], icp, rot, m, l, World.hash_ok, World.crypto_ok, h⟩

/-- With a Blake3-256 digest the same rotation is accepted (`C80_partial`: this is so of all the identifiers that the library creates). -/
example : ∃ E icp rot m l, HashOk E.H ∧ CryptoOk E.C ∧ Commits E (str% "E") icp rot m l true := by
  obtain ⟨icp, rot, m, l, h⟩ := World.commits_ok (code := str% "E") (accepted := true) (by decide +kernel)
  exact ⟨World.env [], icp, rot, m, l, World.hash_ok, World.crypto_ok, h⟩

/-- An identifier whose next key is listed by a SHA3-256 digest, and an interaction. -/
def World.otherDigest : Res Sad := do
  let x ← World.committing (str% "H")
  .ok x.1

def World.otherIxn : Res Sad := do
  let i ← World.otherDigest
  let p ← Serder.pre i
  interact (World.env []) p p (some 1) none none none

/-- A check that a text is an inception with few weights and other digests only. -/
def World.isOther (t : Str) : Bool :=
  World.holds (Serder.newWithRaw (World.env []).fl (toUtf8 t)) fun s =>
    (match field (str% "t") s.ked with
    | some (.str x) => decide (x = str% "icp")
    | _ => false) &&
    World.few (Serder.ntholder true (World.env []).fl s) &&
    World.holds (Serder.digers s) fun ds => decide (ds ≠ []) && ds.all fun d => decide (d.code ≠ str% "E")

theorem World.isOther_ok {t : Str} (h : World.isOther t = true) : ∃ s digests, Serder.newWithRaw (World.env []).fl (toUtf8 t) = .ok s ∧ Establishes s ∧
    (∀ th, Serder.ntholder true (World.env []).fl s = .ok (some th) → FewWeights th) ∧ Serder.digers s = .ok digests ∧ digests ≠ [] ∧ ∀ d ∈ digests, d.code ≠ str% "E" := by
  unfold World.isOther at h
  obtain ⟨s, hs, h⟩ := World.holds_ok h
  rw [Bool.and_eq_true, Bool.and_eq_true] at h
  obtain ⟨⟨h1, h2⟩, h3⟩ := h
  obtain ⟨ds, hd, h3⟩ := World.holds_ok h3
  rw [Bool.and_eq_true, decide_eq_true_eq] at h3
  refine ⟨s, ds, hs, .inl ?_, World.few_ok h2, hd, h3.1, fun d hm => of_decide_eq_true (List.all_eq_true.mp h3.2 d hm)⟩
  unfold HasText
  split at h1
  · rename_i x hx
    rw [hx, of_decide_eq_true h1]
  · cases h1

/-- The hypotheses of `C111_never` are met by a verifier that keeps such an inception and an interaction. -/
example : ∃ hist st pre t t' s s' digests, Reach (World.env []) hist st ∧ (st.kels pre).length ≤ 2 ^ 32 ∧ (st.kels pre)[0]? = some t ∧ (st.kels pre)[1]? = some t' ∧
    Serder.newWithRaw (World.env []).fl (toUtf8 t) = .ok s ∧ Serder.newWithRaw (World.env []).fl (toUtf8 t') = .ok s' ∧ Establishes s ∧
    (∀ th, Serder.ntholder true (World.env []).fl s = .ok (some th) → FewWeights th) ∧ Serder.digers s = .ok digests ∧ digests ≠ [] ∧ ∀ d ∈ digests, d.code ≠ str% "E" := by
  have h : World.keeps [World.signed (World.ks [1]) World.otherDigest, World.signed (World.ks [1]) World.otherIxn] (fun st =>
      World.holds (World.otherDigest >>= Serder.pre) fun pre => decide ((st.kels pre).length = 2) && World.isOther ((st.kels pre).headD []) &&
        World.holds (Serder.newWithRaw (World.env []).fl (toUtf8 ((st.kels pre).getLastD []))) fun _ => true) = true := by
    decide +kernel
  obtain ⟨hist, st, h1, h2, h3⟩ := World.keeps_reach h (by decide)
  obtain ⟨pre, -, h2⟩ := World.holds_ok h2
  rw [Bool.and_eq_true, Bool.and_eq_true, decide_eq_true_eq] at h2
  obtain ⟨⟨h4, h5⟩, h6⟩ := h2
  have h7 := (h3 pre).1
  obtain ⟨a, b, hab⟩ := List.length_eq_two.mp h4
  rw [hab] at h5 h6
  obtain ⟨s, ds, z1, z2, z3, z4, z5, z6⟩ := World.isOther_ok h5
  obtain ⟨s', hs', -⟩ := World.holds_ok h6
  exact ⟨hist, st, pre, a, b, s, s', ds, h1, h7, by rw [hab]; rfl, by rw [hab]; rfl, z1, hs', z2, z3, z4, z5, z6⟩

end Keride.Props
