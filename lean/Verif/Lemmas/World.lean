/-
A small world in which identifiers are created, used and verified: hash and signature functions that can be
evaluated, keys, events built by the modelled code, and the messages they give. It serves the examples beside the
theorems.
-/
import Verif.Model.Sample.Ingest
import Verif.Model.Sample.Keys
import Verif.Spec.Kel
import Verif.Spec.Crypto

namespace Keride.World

open Matter Spec Sample

/-- A hash function: the length and a checksum. -/
def hash : Hash := fun code b =>
  let s := b.foldl (fun a x => (a * 31 + x.toNat + 1) % 65521) 7
  List.replicate ((if code.length = 1 then 32 else 64) - 2) (UInt8.ofNat b.length) ++ [UInt8.ofNat (s / 256), UInt8.ofNat s]

theorem hash_ok : HashOk hash := by
  have h : ∀ c ∈ digests, ∀ e ∈ fixedCodes, e.1 = c → e.2 = if c.length = 1 then 32 else 64 := by decide +kernel
  intro code hc n hn ser
  have : n = if code.length = 1 then 32 else 64 := h code hc _ hn rfl
  unfold hash
  rw [List.length_append, List.length_replicate, this]
  split <;> rfl

/-- A signature scheme: the signature is the public key and the hash of the message. -/
def crypto : Crypto where
  generate _ _ := List.replicate 32 1
  publicKey s sk := .ok (if s = .ed25519 then sk else 0 :: sk)
  sign _ _ sk ser := .ok (sk ++ hash (str% "E") ser)
  verify s pk sig ser := .ok (decide (sig = (if s = .ed25519 then pk else pk.tail) ++ hash (str% "E") ser))

theorem crypto_ok : CryptoOk crypto where
  key := by
    intro s sk pk hl h
    cases h
    split <;> simp [hl]
  sign := by
    intro s rnd sk ser pk hl h
    cases h
    have hh : (hash (str% "E") ser).length = 32 := hash_ok (str% "E") (by decide) 32 (by decide) ser
    refine ⟨_, rfl, by rw [List.length_append, hl, hh], ?_⟩
    change Res.ok _ = _
    congr 1
    rw [decide_eq_true_eq]
    by_cases hs : s = .ed25519
    · rw [if_pos hs, if_pos hs]
    · rw [if_neg hs, if_neg hs]; rfl

/-- A verifier that receives `msgs`. -/
def env (msgs : List Msg) : Env where
  chk := true
  fl := fun _ => none
  H := hash
  C := crypto
  parse := fun _ => .ok msgs
  seen := fun _ _ => true
  refuses := fun _ _ => false
  schema := fun _ _ => .ok true
  expired := fun _ => .ok false

theorem env_remembers (msgs : List Msg) : Remembers (env msgs) :=
  ⟨fun _ _ _ _ _ _ _ _ => rfl, fun _ _ _ _ _ _ _ _ => rfl, fun _ _ _ _ _ _ _ => rfl⟩

theorem env_same (msgs msgs' : List Msg) : SameCode (env msgs) (env msgs') := ⟨rfl, rfl, rfl, rfl⟩

/-- The `n`th seed. -/
def key (n : Nat) : Res Str := do
  let s ← Signer.newWithRaw crypto (List.replicate 32 (UInt8.ofNat n)) (some true) none
  qb64 true s.m

/-- A key set. -/
def ks (l : List Nat) : Res KeySet := do
  let k ← Res.mapList key l
  .ok ⟨k, 0, true⟩

/-- The message of an event signed by a key set. -/
def signed (k : Res KeySet) (e : Res Sad) : Res (Msg × Msg) := do
  let k ← k
  let s ← e
  let t ← fromUtf8 s.raw
  let sg ← k.sign (env []) 0 s.raw none
  let e ← endorseSerder true (some sg) none none none
  .ok (.payload t, .group (.quadlets [.controller sg]) (.ok e))

/-- An inception with two keys of weight one half, and two next keys. -/
def icp : Res Sad := do
  let a ← ks [1, 2]
  let b ← ks [3, 4]
  let x ← a.verfersQb64 (env [])
  let y ← b.digersQb64 (env [])
  Sample.incept (env []) x (some (.arr [.str (str% "1/2"), .str (str% "1/2")])) (some y) none none none none none none none (some (str% "E")) none none

/-- An interaction. -/
def ixn : Res Sad := do
  let i ← icp
  let p ← Serder.pre i
  let d ← Sadder.said true i
  Sample.interact (env []) p d (some 1) none none none

/-- A rotation to the two next keys, with one next key. -/
def rot : Res Sad := do
  let i ← ixn
  let p ← Serder.pre i
  let d ← Sadder.said true i
  let a ← ks [3, 4]
  let b ← ks [5]
  let x ← a.verfersQb64 (env [])
  let y ← b.digersQb64 (env [])
  Sample.rotate (env []) p x d none 2 none (some y) none none none none none none none none none

/-- The three events, signed. -/
def stream : Res (List Msg) := do
  let a ← signed (ks [1, 2]) icp
  let b ← signed (ks [1, 2]) ixn
  let c ← signed (ks [3, 4]) rot
  .ok [a.1, a.2, b.1, b.2, c.1, c.2]

mutual

/-- No floats, distinct keys, integers of 64 bits. -/
def plain : Value → Bool
  | .int i => decide (-2 ^ 63 ≤ i ∧ i < 2 ^ 63)
  | .float _ => false
  | .arr a => plainArr a
  | .obj o => decide (o.map Prod.fst).Nodup && plainObj o
  | _ => true

def plainArr : List Value → Bool
  | [] => true
  | v :: l => plain v && plainArr l

def plainObj : List (Str × Value) → Bool
  | [] => true
  | (_, v) :: l => plain v && plainObj l

end

mutual

theorem plain_proper {F : Str → Prop} : ∀ v, plain v = true → Proper F v
  | .null, _ => by simp [Proper]
  | .bool _, _ => by simp [Proper]
  | .int i, h => by simpa [Proper, plain] using h
  | .float _, h => by simp [plain] at h
  | .str _, _ => by simp [Proper]
  | .arr a, h => by
    rw [Proper]
    exact plainArr_proper a (by simpa [plain] using h)
  | .obj o, h => by
    rw [Proper]
    have h : (o.map Prod.fst).Nodup ∧ plainObj o = true := by simpa [plain] using h
    exact ⟨h.1, plainObj_proper o h.2⟩

theorem plainArr_proper {F : Str → Prop} : ∀ l, plainArr l = true → ProperArr F l
  | [], _ => by simp [ProperArr]
  | v :: l, h => by
    have h : plain v = true ∧ plainArr l = true := by simpa [plainArr] using h
    exact ⟨plain_proper v h.1, plainArr_proper l h.2⟩

theorem plainObj_proper {F : Str → Prop} : ∀ l, plainObj l = true → ProperObj F l
  | [], _ => by simp [ProperObj]
  | (k, v) :: l, h => by
    have h : plain v = true ∧ plainObj l = true := by simpa [plainObj] using h
    exact ⟨plain_proper v h.1, plainObj_proper l h.2⟩

end

/-- A result, and a check of it. -/
def holds {α : Type} (r : Res α) (f : α → Bool) : Bool :=
  match r with
  | .ok x => f x
  | _ => false

theorem holds_ok {α : Type} {r : Res α} {f : α → Bool} (h : holds r f = true) : ∃ x, r = .ok x ∧ f x = true := by
  unfold holds at h
  split at h
  · exact ⟨_, rfl, h⟩
  · cases h

def panicked {α : Type} : Res α → Bool
  | .panic => true
  | _ => false

theorem panics_of {α : Type} {r : Res α} (h : panicked r = true) : r = .panic := by
  cases r with
  | panic => rfl
  | _ => cases h

/-- Witnesses, or any other texts. -/
def names (n : Nat) : List Str := (List.range n).map fun i => 'W' :: Nat.toDigits 10 i

/-- The version string comes first and there are no floats. -/
def ordinary : Value → Bool
  | .obj o => decide (o.head?.map Prod.fst = some (str% "v")) && plain (.obj o)
  | _ => false

theorem ordinary_ok {s : Sad} (h : ordinary s.ked = true) : Ordinary s := by
  unfold ordinary at h
  split at h
  case h_1 o ho =>
    rw [Bool.and_eq_true] at h
    exact ⟨o, ho, of_decide_eq_true h.1, plain_proper _ h.2⟩
  case h_2 => cases h

/-- A stored text is an ordinary event. -/
def ordinaryText (t : Str) : Bool :=
  match Serder.newWithRaw (fun _ => none) (toUtf8 t) with
  | .ok s => ordinary s.ked
  | _ => false

/-- What a verifier keeps after taking in a stream of events of an identifier: how many events, whether the stream was
accepted, and whether the events are ordinary. -/
def outcome (stream : Res (List Msg)) (icp : Res Sad) : Nat × Bool × Bool :=
  match stream, icp >>= Serder.pre with
  | .ok l, .ok p => let r := ingestLoop (env l) 5 none none Store.empty l []; ((r.1.kels p).length, r.2.isOk, (r.1.kels p).all ordinaryText)
  | _, _ => (0, false, false)

theorem reached_of {stream : Res (List Msg)} {icp : Res Sad} {n : Nat} {b : Bool} (h : outcome stream icp = (n + 1, b, true)) :
    ∃ hist st pre, Reach (env []) hist st ∧ (st.kels pre).length = n + 1 ∧
      ∀ t ∈ st.kels pre, ∀ s, Serder.newWithRaw (fun _ => none) (toUtf8 t) = .ok s → Ordinary s := by
  unfold outcome at h
  split at h
  case h_1 l p hl =>
    refine ⟨_, _, p, Reach.ingest (env l) 5 l.length [] l none none .empty (env_same _ _) (env_remembers l) rfl (by simp), ?_⟩
    rw [List.take_length]
    refine ⟨congrArg Prod.fst h, ?_⟩
    have h3 := congrArg (fun x => x.2.2) h
    intro t ht s hs
    have := List.all_eq_true.mp h3 t ht
    unfold ordinaryText at this
    rw [hs] at this
    exact ordinary_ok this
  case h_2 => simp at h

/-- A verifier that starts empty and receives the three events keeps a log of three. -/
theorem reached : ∃ hist st pre, Reach (env []) hist st ∧ (st.kels pre).length = 3 ∧
      ∀ t ∈ st.kels pre, ∀ s, Serder.newWithRaw (fun _ => none) (toUtf8 t) = .ok s → Ordinary s :=
  reached_of (stream := stream) (icp := icp) (b := true) (by decide +kernel)

end Keride.World
