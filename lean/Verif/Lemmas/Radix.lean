import Verif.Model.Radix
import Mathlib.Tactic.Ring
import Mathlib.Algebra.Order.Ring.Nat
import Mathlib.Data.List.Induction

namespace Keride

@[simp] theorem ofBase_nil (b : Nat) : ofBase b [] = 0 := rfl

theorem foldl_base (b : Nat) (ds : List Nat) (a : Nat) :
    ds.foldl (fun acc d => acc * b + d) a = a * b ^ ds.length + ofBase b ds := by
  unfold ofBase
  induction ds generalizing a with
  | nil => simp
  | cons d ds ih =>
    simp only [List.foldl_cons, List.length_cons]
    rw [ih (a * b + d), ih (0 * b + d)]
    ring

theorem ofBase_cons (b d : Nat) (ds : List Nat) :
    ofBase b (d :: ds) = d * b ^ ds.length + ofBase b ds := by
  have := foldl_base b ds d
  simpa [ofBase] using this

theorem ofBase_append (b : Nat) (l m : List Nat) :
    ofBase b (l ++ m) = ofBase b l * b ^ m.length + ofBase b m := by
  conv_lhs => unfold ofBase
  rw [List.foldl_append, foldl_base]
  rfl

@[simp] theorem ofBase_singleton (b d : Nat) : ofBase b [d] = d := by simp [ofBase]

theorem ofBase_lt (b : Nat) (ds : List Nat) (h : ∀ d ∈ ds, d < b) : ofBase b ds < b ^ ds.length := by
  induction ds with
  | nil => simp
  | cons d ds ih =>
    rw [ofBase_cons, List.length_cons, Nat.pow_succ]
    have h1 := ih (fun x hx => h x (List.mem_cons_of_mem _ hx))
    have h2 : d + 1 ≤ b := h d List.mem_cons_self
    have h3 : (d + 1) * b ^ ds.length ≤ b * b ^ ds.length := Nat.mul_le_mul_right _ h2
    have h4 : (d + 1) * b ^ ds.length = d * b ^ ds.length + b ^ ds.length := by ring
    have h5 : b ^ ds.length * b = b * b ^ ds.length := by ring
    omega

theorem ofBase_replicate_zero (b k : Nat) : ofBase b (List.replicate k 0) = 0 := by
  induction k with
  | zero => rfl
  | succ k ih => rw [List.replicate_succ, ofBase_cons, ih]; simp

@[simp] theorem toBase_length (b len n : Nat) : (toBase b len n).length = len := by
  induction len generalizing n with
  | zero => rfl
  | succ len ih => simp [toBase, ih]

theorem toBase_lt {b : Nat} (hb : 0 < b) (len n : Nat) : ∀ d ∈ toBase b len n, d < b := by
  induction len generalizing n with
  | zero => simp [toBase]
  | succ len ih =>
    intro d hd
    rw [toBase, List.mem_append] at hd
    rcases hd with hd | hd
    · exact ih _ d hd
    · simp only [List.mem_singleton] at hd
      subst hd
      exact Nat.mod_lt _ hb

theorem ofBase_toBase (b len n : Nat) : ofBase b (toBase b len n) = n % b ^ len := by
  induction len generalizing n with
  | zero => simp [toBase, Nat.mod_one]
  | succ len ih =>
    rw [toBase, ofBase_append, ih]
    simp only [List.length_singleton, Nat.pow_one, ofBase_singleton]
    rw [Nat.pow_succ, Nat.mul_comm (b ^ len) b, Nat.mod_mul, Nat.add_comm, Nat.mul_comm b]

theorem ofBase_toBase_of_lt {b len n : Nat} (h : n < b ^ len) : ofBase b (toBase b len n) = n := by
  rw [ofBase_toBase, Nat.mod_eq_of_lt h]

theorem toBase_ofBase {b : Nat} (ds : List Nat) (h : ∀ d ∈ ds, d < b) :
    toBase b ds.length (ofBase b ds) = ds := by
  induction ds using List.reverseRecOn with
  | nil => rfl
  | append_singleton ds d ih =>
    have hd : d < b := h d (by simp)
    have hb : 0 < b := Nat.lt_of_le_of_lt (Nat.zero_le _) hd
    rw [ofBase_append]
    simp only [List.length_append, List.length_singleton, Nat.pow_one, ofBase_singleton, toBase]
    have h1 : (ofBase b ds * b + d) / b = ofBase b ds := by
      rw [Nat.mul_comm, Nat.mul_add_div hb, Nat.div_eq_of_lt hd, Nat.add_zero]
    have h2 : (ofBase b ds * b + d) % b = d := by
      rw [Nat.mul_comm, Nat.mul_add_mod, Nat.mod_eq_of_lt hd]
    rw [h1, h2, ih (fun x hx => h x (by simp [hx]))]

theorem toBase_add (b i j n : Nat) :
    toBase b (i + j) n = toBase b i (n / b ^ j) ++ toBase b j n := by
  induction j generalizing n with
  | zero => simp [toBase]
  | succ j ih =>
    rw [← Nat.add_assoc, toBase, ih, toBase, List.append_assoc, Nat.div_div_eq_div_mul,
      Nat.pow_succ, Nat.mul_comm b]

theorem toBase_mod (b len n : Nat) : toBase b len (n % b ^ len) = toBase b len n := by
  induction len generalizing n with
  | zero => rfl
  | succ len ih =>
    rw [toBase, toBase]
    have h1 : n % b ^ (len + 1) / b = (n / b) % b ^ len := by
      rw [Nat.pow_succ, Nat.mul_comm, Nat.mod_mul_right_div_self]
    have h2 : n % b ^ (len + 1) % b = n % b := by
      rw [Nat.pow_succ, Nat.mul_comm, Nat.mod_mul_right_mod]
    rw [h1, h2, ih]

theorem toBase_mul_add {b : Nat} (hb : 0 < b) (i j m v : Nat) (hv : v < b ^ j) :
    toBase b (i + j) (m * b ^ j + v) = toBase b i m ++ toBase b j v := by
  have hp : 0 < b ^ j := Nat.pow_pos hb
  rw [toBase_add]
  have h1 : (m * b ^ j + v) / b ^ j = m := by
    rw [Nat.mul_comm, Nat.mul_add_div hp, Nat.div_eq_of_lt hv, Nat.add_zero]
  rw [h1, ← toBase_mod b j (m * b ^ j + v), Nat.mul_comm, Nat.mul_add_mod, Nat.mod_eq_of_lt hv]

theorem toBase_zero (b len : Nat) : toBase b len 0 = List.replicate len 0 := by
  induction len with
  | zero => rfl
  | succ len ih => rw [toBase, Nat.zero_div, ih, Nat.zero_mod, ← List.replicate_succ']

theorem toBase_drop (b i j n : Nat) : (toBase b (i + j) n).drop i = toBase b j n := by
  rw [toBase_add, List.drop_left' (by simp)]

theorem toBase_take (b i j n : Nat) : (toBase b (i + j) n).take i = toBase b i (n / b ^ j) := by
  rw [toBase_add, List.take_left' (by simp)]

theorem toBase_inj {b len m n : Nat} (hm : m < b ^ len) (hn : n < b ^ len)
    (h : toBase b len m = toBase b len n) : m = n := by
  rw [← ofBase_toBase_of_lt hm, ← ofBase_toBase_of_lt hn, h]

theorem ofBase_inj {b : Nat} {l m : List Nat} (hl : ∀ d ∈ l, d < b) (hm : ∀ d ∈ m, d < b)
    (hlen : l.length = m.length) (h : ofBase b l = ofBase b m) : l = m := by
  rw [← toBase_ofBase l hl, ← toBase_ofBase m hm, hlen, h]

end Keride
