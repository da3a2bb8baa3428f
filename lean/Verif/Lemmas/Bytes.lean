import Verif.IO.Bytes
import Mathlib.Data.List.Basic
import Mathlib.Tactic.Ring
import Mathlib.Tactic.Linarith

/-!
# Encoding and decoding of words
-/

namespace Pymech

theorem leBytes_length (k n : Nat) : (leBytes k n).length = k := by
  induction k generalizing n with
  | zero => rfl
  | succ k ih => simp [leBytes, ih]

theorem leNat_leBytes (k n : Nat) : leNat (leBytes k n) = n % 256 ^ k := by
  induction k generalizing n with
  | zero => simp [leBytes, leNat, Nat.mod_one]
  | succ k ih =>
    simp only [leBytes, leNat, ih]
    have h : (UInt8.ofNat (n % 256)).toNat = n % 256 := by
      simp [UInt8.toNat_ofNat']
    rw [h, Nat.pow_succ', Nat.mod_mul]

theorem leBytes_leNat (l : Bytes) : leBytes l.length (leNat l) = l := by
  induction l with
  | nil => rfl
  | cons b l ih =>
    simp only [List.length_cons, leBytes, leNat]
    have hb : b.toNat < 256 := b.toNat_lt
    have h1 : (b.toNat + 256 * leNat l) % 256 = b.toNat := by omega
    have h2 : (b.toNat + 256 * leNat l) / 256 = leNat l := by omega
    rw [h1, h2, ih]
    simp

theorem leNat_lt (l : Bytes) : leNat l < 256 ^ l.length := by
  have := leNat_leBytes l.length (leNat l)
  rw [leBytes_leNat] at this
  rw [this]
  exact Nat.mod_lt _ (by positivity)

theorem encW_length (e : Endian) (k n : Nat) : (encW e k n).length = k := by
  cases e <;> simp [encW, leBytes_length]

theorem decW_encW (e : Endian) (k n : Nat) : decW e (encW e k n) = n % 256 ^ k := by
  cases e <;> simp [encW, decW, leNat_leBytes]

theorem encW_decW (e : Endian) (l : Bytes) : encW e l.length (decW e l) = l := by
  cases e
  · exact leBytes_leNat l
  · simp only [encW, decW]
    have := leBytes_leNat l.reverse
    rw [List.length_reverse] at this
    rw [this, List.reverse_reverse]

theorem decW_lt (e : Endian) (l : Bytes) : decW e l < 256 ^ l.length := by
  cases e
  · exact leNat_lt l
  · have := leNat_lt l.reverse
    simpa [decW] using this

/-- The other byte order. -/
def Endian.flip : Endian → Endian
  | .little => .big
  | .big => .little

/-- Byte order of what a machine writes. -/
def outEndian (native : Endian) (swap : Bool) : Endian := if swap then native.flip else native

theorem item_eq (native : Endian) (swap : Bool) (k n : Nat) :
    item native swap k n = encW (outEndian native swap) k n := by
  cases native <;> cases swap <;> simp [item, encW, outEndian, Endian.flip]

/-- The byte order of the file is the requested one. -/
theorem outEndian_swap (native e : Endian) : outEndian native (decide (e ≠ native)) = e := by
  cases native <;> cases e <;> rfl

theorem item_length (native : Endian) (swap : Bool) (k n : Nat) : (item native swap k n).length = k := by
  rw [item_eq, encW_length]

theorem i32Bits_lt (i : Int) : i32Bits i < 2 ^ 32 := by unfold i32Bits; omega

theorem i32Val_i32Bits (i : Int) (h : -2 ^ 31 ≤ i) (h' : i < 2 ^ 31) : i32Val (i32Bits i) = i := by
  unfold i32Val i32Bits; split <;> omega

/-! ### Consecutive blocks -/

theorem flatMap_length_const {α β : Type} (k : Nat) (f : α → List β) (l : List α) (h : ∀ x ∈ l, (f x).length = k) :
    (l.flatMap f).length = l.length * k := by
  induction l with
  | nil => simp
  | cons a l ih =>
    rw [List.flatMap_cons, List.length_append, h a (by simp), ih fun x hx => h x (by simp [hx]), List.length_cons]
    ring

theorem drop_flatMap_const {α : Type} (k : Nat) (f : α → Bytes) (l : List α) (h : ∀ x ∈ l, (f x).length = k) (i : Nat) :
    (l.flatMap f).drop (i * k) = (l.drop i).flatMap f := by
  induction l generalizing i with
  | nil => simp
  | cons a l ih =>
    cases i with
    | zero => simp
    | succ i =>
      rw [List.flatMap_cons, show (i + 1) * k = k + i * k by ring, ← List.drop_drop,
        List.drop_left' (h a (by simp)), ih fun x hx => h x (by simp [hx])]
      rfl

/-- Block `i` of a sequence of blocks of the same size. -/
theorem block_flatMap {α : Type} (k : Nat) (f : α → Bytes) (l : List α) (h : ∀ x ∈ l, (f x).length = k) (i : Nat)
    (a : α) (ha : l[i]? = some a) (t : Bytes) : ((l.flatMap f ++ t).drop (i * k)).take k = f a := by
  have hi : i < l.length := by
    rcases List.getElem?_eq_some_iff.mp ha with ⟨h, -⟩; exact h
  have hlen := flatMap_length_const k f l h
  rw [List.drop_append_of_le_length (by rw [hlen]; exact Nat.mul_le_mul_right _ hi.le), drop_flatMap_const k f l h]
  obtain ⟨b, hb⟩ := List.getElem?_eq_some_iff.mp ha
  rw [List.drop_eq_getElem_cons hi, List.flatMap_cons, List.append_assoc]
  subst hb
  exact List.take_left' (h _ (List.getElem_mem _))

theorem words_flatMap {α : Type} (k : Nat) (f : α → Bytes) (l : List α) (h : ∀ x ∈ l, (f x).length = k) (t : Bytes) :
    words k l.length (l.flatMap f ++ t) = l.map f := by
  induction l with
  | nil => rfl
  | cons a l ih =>
    have ha := h a (by simp)
    rw [List.length_cons, words, List.flatMap_cons, List.append_assoc, List.take_left' ha, List.drop_left' ha,
      ih fun x hx => h x (by simp [hx])]
    rfl

theorem words_length (k n : Nat) (l : Bytes) : (words k n l).length = n := by
  induction n generalizing l with
  | zero => rfl
  | succ n ih => simp [words, ih]

theorem words_getElem? (k n : Nat) (l : Bytes) (i : Nat) (h : i < n) :
    (words k n l)[i]? = some ((l.drop (i * k)).take k) := by
  induction n generalizing l i with
  | zero => omega
  | succ n ih =>
    cases i with
    | zero => simp [words]
    | succ i =>
      rw [words, List.getElem?_cons_succ, ih _ _ (by omega), List.drop_drop, show k + i * k = (i + 1) * k by ring]

namespace Flt

variable {eb mb : Nat}

theorem ofBits_bits (x : Flt eb mb) : ofBits x.bits = x := by
  obtain ⟨s, m, h⟩ := x
  have hp : 0 < 2 ^ (eb + mb) := Nat.two_pow_pos _
  unfold ofBits bits
  cases s
  · simp [Nat.div_eq_of_lt h, Nat.mod_eq_of_lt h]
  · have h1 : (2 ^ (eb + mb) + m) / 2 ^ (eb + mb) = 1 := by
      rw [Nat.add_div_left _ hp, Nat.div_eq_of_lt h]
    have h2 : (2 ^ (eb + mb) + m) % 2 ^ (eb + mb) = m := by
      rw [Nat.add_mod_left, Nat.mod_eq_of_lt h]
    simp [h1, h2]

theorem bits_lt (x : Flt eb mb) : x.bits < 2 ^ (eb + mb + 1) := by
  obtain ⟨s, m, h⟩ := x
  unfold bits
  rw [Nat.pow_succ]
  dsimp only
  split <;> omega

end Flt

theorem F32.bits_lt (x : F32) : x.bits < 256 ^ 4 := Flt.bits_lt x
theorem F64.bits_lt (x : F64) : x.bits < 256 ^ 8 := Flt.bits_lt x

end Pymech
