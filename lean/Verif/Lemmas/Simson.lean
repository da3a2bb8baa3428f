import Verif.IO.Simson
import Verif.Lemmas.Re2
import Verif.Lemmas.Text
import Verif.Lemmas.Basic

/-!
# Reading SIMSON files
-/

namespace Pymech

/-! ### The reader -/

theorem rd_bind {α β : Type} {x : Rd α} {f : α → Rd β} {s s' : Bytes} {a : α} (h : x s = .ok (a, s')) : (x >>= f) s = f a s' := by
  show (x s >>= fun p => f p.1 p.2) = _
  rw [h]
  rfl

theorem rd_bind_err {α β : Type} {x : Rd α} {f : α → Rd β} {s : Bytes} {e : PyErr} (h : x s = .error e) : (x >>= f) s = .error e := by
  show (x s >>= fun p => f p.1 p.2) = _
  rw [h]
  rfl

theorem rd_app {n : Nat} {a : Bytes} (h : a.length = n) (r : Bytes) : rd n (a ++ r) = .ok (a, r) := by
  unfold rd
  rw [List.take_left' h, List.drop_left' h]

theorem Rd.of_ok {α : Type} (a : α) (s : Bytes) : Rd.of (.ok a : Py α) s = .ok (a, s) := rfl

theorem unpackI_ok (e : Endian) (i : Int) (h1 : -2 ^ 31 ≤ i) (h2 : i < 2 ^ 31) : unpackI e (encW e 4 (i32Bits i)) = .ok i := by
  have hlt : i32Bits i < 256 ^ 4 := lt_of_lt_of_le (i32Bits_lt i) (by norm_num)
  unfold unpackI
  rw [if_pos (encW_length _ _ _), decW_encW, Nat.mod_eq_of_lt hlt, i32Val_i32Bits i h1 h2]

theorem rdI_app (e : Endian) (i : Int) (h1 : -2 ^ 31 ≤ i) (h2 : i < 2 ^ 31) (r : Bytes) : rdI e (encW e 4 (i32Bits i) ++ r) = .ok (i, r) := by
  unfold rdI
  rw [rd_bind (rd_app (encW_length _ _ _) r), unpackI_ok e i h1 h2]
  rfl

/-- Doubles in a file. -/
def dbls (e : Endian) (l : List F64) : Bytes := l.flatMap fun x => encW e 8 x.bits

theorem dbls_length (e : Endian) (l : List F64) : (dbls e l).length = 8 * l.length := by
  unfold dbls
  rw [flatMap_length_const 8 _ l fun x _ => encW_length e 8 _, Nat.mul_comm]

theorem rdD_app (e : Endian) (l : List F64) (n : Nat) (h : l.length = n) (r : Bytes) : rdD e n (dbls e l ++ r) = .ok (l, r) := by
  unfold rdD
  rw [rd_bind (rd_app (by rw [dbls_length, h]) r)]
  unfold unpackD
  rw [if_pos (by rw [dbls_length, h])]
  have hw : words 8 n (dbls e l) = l.map fun x => encW e 8 x.bits := by
    have := words_flatMap 8 (fun x : F64 => encW e 8 x.bits) l (fun x _ => encW_length e 8 _) []
    rw [List.append_nil, h] at this
    exact this
  rw [hw, List.map_map]
  have : (List.map ((fun w => (Flt.ofBits (decW e w) : F64)) ∘ fun x => encW e 8 x.bits) l) = l := by
    conv_rhs => rw [← List.map_id l]
    apply List.map_congr_left
    intro x _
    exact decW8 e x
  rw [this]
  rfl

/-- A short file. -/
theorem rdD_any (e : Endian) (n : Nat) (b r : Bytes) (h : b.length = 8 * n) : ∃ l, rdD e n (b ++ r) = .ok (l, r) := by
  unfold rdD
  rw [rd_bind (rd_app h r)]
  unfold unpackD
  rw [if_pos h]
  exact ⟨_, rfl⟩

theorem rdD1_any (e : Endian) (b r : Bytes) (h : b.length = 8) : ∃ l, rdD1 e (b ++ r) = .ok (l, r) := by
  obtain ⟨l, hl⟩ := rdD_any e 1 b r (by omega)
  unfold rdD1
  rw [rd_bind hl]
  exact ⟨_, rfl⟩

theorem rdI_any (e : Endian) (b r : Bytes) (h : b.length = 4) : ∃ l, rdI e (b ++ r) = .ok (l, r) := by
  unfold rdI
  rw [rd_bind (rd_app h r)]
  unfold unpackI
  rw [if_pos h]
  exact ⟨_, rfl⟩

/-! ### Lines of Fourier coefficients -/

/-- The bytes of a line: the numbers and the marks of the record. -/
def lineB (e : Endian) (l : List F64) (m : Bytes) : Bytes := dbls e l ++ m

theorem dnsLine_app (e : Endian) (nx : Nat) (l : List F64) (h : l.length = nx) (m : Bytes) (hm : m.length = 8) (r : Bytes) :
    dnsLine e nx (lineB e l m ++ r) = .ok (l, r) := by
  unfold dnsLine lineB
  rw [List.append_assoc, rd_bind (rdD_app e l nx h _), rd_bind (rd_app hm r)]
  rfl

/-- One line stored. -/
def putLine {C : Type} (nx nz : Nat) (coef : F64 → F64 → C) (L : Nat × Nat → List F64) (fou : Nat → Nat → Nat → C) (t : Nat × Nat) :
    Nat → Nat → Nat → C :=
  fun z y x => if z = slot nz t.1 ∧ y = t.2 ∧ x < nx / 2 then coef ((L t).getD (2 * x) 0) ((L t).getD (2 * x + 1) 0) else fou z y x

theorem dnsFold_app {C : Type} (e : Endian) (nx nz : Nat) (coef : F64 → F64 → C) (L : Nat × Nat → List F64) (m : Nat × Nat → Bytes)
    (T : List (Nat × Nat)) (hL : ∀ t ∈ T, (L t).length = nx) (hm : ∀ t ∈ T, (m t).length = 8) (fou : Nat → Nat → Nat → C) (r : Bytes) :
    (T.foldlM (fun fou t => do
      let fi ← dnsLine e nx
      pure fun z y x => if z = slot nz t.1 ∧ y = t.2 ∧ x < nx / 2 then coef (fi.getD (2 * x) 0) (fi.getD (2 * x + 1) 0) else fou z y x) fou : Rd _)
      (T.flatMap (fun t => lineB e (L t) (m t)) ++ r) = .ok (T.foldl (putLine nx nz coef L) fou, r) := by
  induction T generalizing fou with
  | nil => rfl
  | cons t T ih =>
    rw [List.foldlM_cons, List.flatMap_cons, List.append_assoc,
      rd_bind (a := putLine nx nz coef L fou t) (s' := T.flatMap (fun t => lineB e (L t) (m t)) ++ r), List.foldl_cons]
    · exact ih (fun t ht => hL t (List.mem_cons_of_mem _ ht)) (fun t ht => hm t (List.mem_cons_of_mem _ ht)) _
    · rw [rd_bind (dnsLine_app e nx _ (hL t List.mem_cons_self) _ (hm t List.mem_cons_self) _)]
      rfl

theorem foldl_put_none {C : Type} (nx nz : Nat) (coef : F64 → F64 → C) (L : Nat × Nat → List F64) (T : List (Nat × Nat))
    (fou : Nat → Nat → Nat → C) (z y x : Nat) (h : ∀ t ∈ T, slot nz t.1 = z → t.2 = y → ¬ x < nx / 2) :
    T.foldl (putLine nx nz coef L) fou z y x = fou z y x := by
  induction T generalizing fou with
  | nil => rfl
  | cons t T ih =>
    rw [List.foldl_cons, ih _ fun t ht => h t (List.mem_cons_of_mem _ ht)]
    unfold putLine
    rw [if_neg]
    rintro ⟨h1, h2, h3⟩
    exact h t List.mem_cons_self h1.symm h2.symm h3

theorem prod2_pairwise (m n : Nat) : (prod2 (List.range m) (List.range n)).Pairwise fun a b => a.1 < b.1 ∨ a.1 = b.1 ∧ a.2 < b.2 := by
  unfold prod2
  rw [List.pairwise_flatMap]
  constructor
  · intro i _
    rw [List.pairwise_map]
    exact List.pairwise_lt_range.imp fun h => .inr ⟨rfl, h⟩
  · refine List.pairwise_lt_range.imp ?_
    intro a b hab x hx y hy
    obtain ⟨j, -, rfl⟩ := List.mem_map.mp hx
    obtain ⟨k, -, rfl⟩ := List.mem_map.mp hy
    exact .inl hab

/-- The last line stored in a place is the one found there. -/
theorem foldl_put_last {C : Type} (nx ny nz : Nat) (coef : F64 → F64 → C) (L : Nat × Nat → List F64)
    (fou : Nat → Nat → Nat → C) (iz iy x : Nat) (hz : iz < nz) (hy : iy < ny) (hx : x < nx / 2)
    (hlast : ∀ k, iz < k → k < nz → slot nz k ≠ slot nz iz) :
    (prod2 (List.range nz) (List.range ny)).foldl (putLine nx nz coef L) fou (slot nz iz) iy x =
      coef ((L (iz, iy)).getD (2 * x) 0) ((L (iz, iy)).getD (2 * x + 1) 0) := by
  have hmem : (iz, iy) ∈ prod2 (List.range nz) (List.range ny) := by
    rw [mem_prod2]
    exact ⟨List.mem_range.mpr hz, List.mem_range.mpr hy⟩
  obtain ⟨A, B, hAB⟩ := List.append_of_mem hmem
  have hp := prod2_pairwise nz ny
  have hall : ∀ t ∈ B, t.1 < nz := by
    intro t ht
    have : t ∈ prod2 (List.range nz) (List.range ny) := by rw [hAB]; simp [ht]
    rw [mem_prod2] at this
    exact List.mem_range.mp this.1
  rw [hAB] at hp ⊢
  rw [List.pairwise_append, List.pairwise_cons] at hp
  rw [List.foldl_append, List.foldl_cons, foldl_put_none]
  · unfold putLine
    rw [if_pos ⟨rfl, rfl, hx⟩]
  · intro t ht h1 h2
    rcases hp.2.1.1 t ht with h | ⟨h3, h4⟩
    · exact absurd h1 (hlast t.1 h (hall t ht))
    · exact absurd h2 (by dsimp only at h4; omega)

end Pymech
