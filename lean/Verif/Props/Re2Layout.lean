import Verif.Props.Re2

/-!
# The layout of `.re2` files: C98
-/

set_option autoImplicit false

namespace Pymech

namespace Spec

/-- The bytes `w` are in `b` at offset `o`. -/
def BytesAt (b : Bytes) (o : Nat) (w : Bytes) : Prop := ∃ x y, b = x ++ w ++ y ∧ x.length = o

/-- The double `v` is in `b` at offset `o`. -/
def DoubleAt (e : Endian) (b : Bytes) (o : Nat) (v : F64) : Prop := BytesAt b o (encW e 8 v.bits)

/-- A double with the value `n` is in `b` at offset `o`. -/
def NumberAt (e : Endian) (b : Bytes) (o n : Nat) : Prop := ∃ v : F64, DoubleAt e b o v ∧ v.Finite ∧ v.val = n

/-- The number `n` in decimal, right justified in `w` columns. -/
def Column (w n : Nat) (t : Text) : Prop := t.length = w ∧ ∃ k, t = List.replicate k ' ' ++ Nat.toDigits 10 n

/-- The pairs with a property, in lexicographic order. -/
def Lists (L : List (Nat × Nat)) (p : Nat → Nat → Prop) : Prop :=
  L.Pairwise (fun a b => a.1 < b.1 ∨ a.1 = b.1 ∧ a.2 < b.2) ∧ ∀ i k, (i, k) ∈ L ↔ p i k

/-- A section of records, each of seven doubles and eight characters: the number of records, and for each record the number of the element
and of the edge or face, both from 1 on, five parameters and a text. -/
def SectionAt (e : Endian) (b : Bytes) (o : Nat) (L : List (Nat × Nat)) (par : Nat → Nat → Nat → F64) (txt : Nat → Nat → Bytes) : Prop :=
  NumberAt e b o L.length ∧ ∀ r i k, L[r]? = some (i, k) →
    NumberAt e b (o + 8 + 64 * r) (i + 1) ∧ NumberAt e b (o + 8 + 64 * r + 8) (k + 1) ∧
      (∀ j < 5, DoubleAt e b (o + 8 + 64 * r + 16 + 8 * j) (par i k j)) ∧
      (txt i k).length = 8 ∧ BytesAt b (o + 8 + 64 * r + 56) (txt i k)

/-- Vertices of an element in the order of the file, as `(iz, iy, ix)`: counter-clockwise on the lower, then on the upper side. -/
def vertexOrder : List (Nat × Nat × Nat) :=
  [(0, 0, 0), (0, 0, 1), (0, 1, 1), (0, 1, 0), (1, 0, 0), (1, 0, 1), (1, 1, 1), (1, 1, 0)]

/-- The parameters of a boundary condition, from the fourth entry of the record on. -/
def bcParams (r : BC F64) : List F64 := [r.p3, r.p4, r.p5, r.p6, r.p7]

/-- Start of the curved edges. -/
def curvesOff (M : HexaData F64) : Nat := 84 + M.nel * (8 * (M.ndim * 2 ^ M.ndim + 1))

/-- Start of the boundary conditions of a field. -/
def fieldOff (M : HexaData F64) (C : List (Nat × Nat)) (B : Nat → List (Nat × Nat)) (b : Nat) : Nat :=
  curvesOff M + (8 + 64 * C.length) + ((List.range b).map fun a => 8 + 64 * (B a).length).sum

/-- The layout of a file for the mesh `M`: 80 characters of header, a tag for the byte order, for each element a number (the group, 0)
and the coordinates of the vertices, then the curved edges and, for each field, the boundary conditions other than `E`. -/
structure Re2Layout (e : Endian) (M : HexaData F64) (f : Bytes) (C : List (Nat × Nat)) (B : Nat → List (Nat × Nat)) : Prop where
  header : ∃ a c rest, BytesAt f 0 (encodeT ("#v002".toList ++ a ++ c ++ a ++ rest)) ∧ Column 9 M.nel a ∧ Column 3 M.ndim c ∧ rest.length = 54
  tag : ∃ v : F32, BytesAt f 80 (encW e 4 v.bits) ∧ v = Flt.ofRat false (654321 / 100000)
  group : ∀ i < M.nel, NumberAt e f (84 + i * (8 * (M.ndim * 2 ^ M.ndim + 1))) 0
  vertex : ∀ i < M.nel, ∀ d < M.ndim, ∀ v < 2 ^ M.ndim, ∀ iz iy ix, vertexOrder[v]? = some (iz, iy, ix) →
    DoubleAt e f (84 + i * (8 * (M.ndim * 2 ^ M.ndim + 1)) + 8 * (1 + 2 ^ M.ndim * d + v)) ((M.el i).pos.dat d iz iy ix)
  curved : Lists C fun i k => i < M.nel ∧ k < 12 ∧ (M.el i).ccurv k ≠ []
  curves : SectionAt e f (curvesOff M) C (fun i k j => (M.el i).curv k j) fun i k => encodeT ((M.el i).ccurv k) ++ List.replicate 7 0
  faces : ∀ b < M.nbc, Lists (B b) fun i k => i < M.nel ∧ k < 2 * M.ndim ∧ (M.bc i b k).typ ≠ [] ∧ (M.bc i b k).typ ≠ nE
  conditions : ∀ b < M.nbc, SectionAt e f (fieldOff M C B b) (B b) (fun i k j => (bcParams (M.bc i b k)).getD j 0)
    fun i k => encodeT ((M.bc i b k).typ ++ List.replicate (8 - (M.bc i b k).typ.length) ' ')
  size : f.length = fieldOff M C B M.nbc

end Spec

open Spec

theorem bytesAt_left (w y : Bytes) : BytesAt (w ++ y) 0 w := ⟨[], y, rfl, rfl⟩

theorem bytesAt_right (x b w : Bytes) (o : Nat) (h : BytesAt b o w) : BytesAt (x ++ b) (x.length + o) w := by
  obtain ⟨u, v, rfl, rfl⟩ := h
  exact ⟨x ++ u, v, by simp, by simp⟩

theorem bytesAt_app (b y w : Bytes) (o : Nat) (h : BytesAt b o w) : BytesAt (b ++ y) o w := by
  obtain ⟨u, v, rfl, rfl⟩ := h
  exact ⟨u, v ++ y, by simp, rfl⟩

theorem bytesAt_trans (b w v : Bytes) (o o' : Nat) (h : BytesAt b o w) (h' : BytesAt w o' v) : BytesAt b (o + o') v := by
  obtain ⟨x, y, rfl, rfl⟩ := h
  rw [List.append_assoc]
  exact bytesAt_right _ _ _ _ (bytesAt_app _ _ _ _ h')

theorem bytesAt_flatMap {α : Type} (k : Nat) (f : α → Bytes) (l : List α) (h : ∀ x ∈ l, (f x).length = k) (i : Nat) (a : α) (ha : l[i]? = some a) :
    BytesAt (l.flatMap f) (i * k) (f a) := by
  obtain ⟨hi, rfl⟩ := List.getElem?_eq_some_iff.mp ha
  refine ⟨(l.take i).flatMap f, (l.drop (i + 1)).flatMap f, ?_, ?_⟩
  · conv_lhs => rw [← List.take_append_drop i l, List.drop_eq_getElem_cons hi]
    rw [List.flatMap_append, List.flatMap_cons, List.append_assoc]
  · rw [flatMap_length_const k f _ fun x hx => h x (List.mem_of_mem_take hx), List.length_take, min_eq_left hi.le]

theorem numberAt_nat (e : Endian) (b : Bytes) (o n : Nat) (hn : n < 2 ^ 53) (h : BytesAt b o (encW e 8 (natF64 n).bits)) : NumberAt e b o n :=
  ⟨natF64 n, h, natF64_val n hn⟩

theorem decN_toDigits (n : Nat) : decN n = Nat.toDigits 10 n := by
  induction n using Nat.strongRecOn with
  | ind n ih =>
    unfold decN
    split
    · next h => interval_cases n <;> decide
    · next h =>
      rw [ih (n / 10) (by omega), Nat.toDigits_of_base_le (b := 10) (n := n) (by omega) (by omega)]
      congr 2
      have hm : n % 10 < 10 := Nat.mod_lt _ (by omega)
      generalize n % 10 = d at hm
      interval_cases d <;> decide

theorem column_rjust (w n : Nat) (h : (decN n).length ≤ w) : Column w n (rjust w (decI n)) := by
  rw [decI_nat]
  refine ⟨?_, w - (decN n).length, ?_⟩
  · unfold rjust
    rw [List.length_append, List.length_replicate]
    omega
  · unfold rjust
    rw [decN_toDigits]

theorem prod2_sorted (m n : Nat) : (prod2 (List.range m) (List.range n)).Pairwise (fun a b => a.1 < b.1 ∨ a.1 = b.1 ∧ a.2 < b.2) := by
  unfold prod2
  rw [List.pairwise_flatMap]
  constructor
  · intro i _
    rw [List.pairwise_map]
    exact List.pairwise_lt_range.imp fun h => .inr ⟨rfl, h⟩
  · refine List.pairwise_lt_range.imp fun {i j} h a ha b hb => ?_
    obtain ⟨k, -, rfl⟩ := List.mem_map.mp ha
    obtain ⟨l, -, rfl⟩ := List.mem_map.mp hb
    exact .inl h

theorem recE_at (e : Endian) (i k : Nat) (p : Nat → F64) (t : Bytes) (hi : i + 1 < 2 ^ 53) (hk : k + 1 < 2 ^ 53) :
    NumberAt e (recE e i k p t) 0 (i + 1) ∧ NumberAt e (recE e i k p t) 8 (k + 1) ∧ (∀ j < 5, DoubleAt e (recE e i k p t) (16 + 8 * j) (p j)) ∧
      BytesAt (recE e i k p t) 56 (s8 t) := by
  have key : ∀ j x, [natF64 (i + 1), natF64 (k + 1), p 0, p 1, p 2, p 3, p 4][j]? = some x → BytesAt (recE e i k p t) (j * 8) (encW e 8 x.bits) := by
    intro j x hx
    unfold recE
    exact bytesAt_app _ _ _ _ (bytesAt_flatMap 8 (fun x : F64 => encW e 8 x.bits) _ (fun _ _ => encW_length _ _ _) j x hx)
  refine ⟨numberAt_nat e _ _ _ hi (key 0 _ rfl), numberAt_nat e _ _ _ hk (key 1 _ rfl), fun j hj => ?_, ?_⟩
  · have : 16 + 8 * j = (j + 2) * 8 := by ring
    rw [this]
    refine key (j + 2) _ ?_
    interval_cases j <;> rfl
  · unfold recE
    have := bytesAt_right ([natF64 (i + 1), natF64 (k + 1), p 0, p 1, p 2, p 3, p 4].flatMap fun x : F64 => encW e 8 x.bits) (s8 t) (s8 t) 0
      (by simpa using bytesAt_left (s8 t) [])
    rwa [nums_length] at this

theorem section_at (e : Endian) (b : Bytes) (o : Nat) (L : List (Nat × Nat)) (par : Nat → Nat → Nat → F64) (txt : Nat → Nat → Bytes)
    (hL : L.length < 2 ^ 53) (hb : ∀ i k, (i, k) ∈ L → i + 1 < 2 ^ 53 ∧ k + 1 < 2 ^ 53)
    (h : BytesAt b o (sectionE e L fun t => recE e t.1 t.2 (par t.1 t.2) (txt t.1 t.2))) :
    SectionAt e b o L par fun i k => s8 (txt i k) := by
  refine ⟨numberAt_nat e _ _ _ hL ?_, fun r i k hr => ?_⟩
  · have := bytesAt_trans _ _ _ _ 0 h (bytesAt_left _ _)
    rwa [Nat.add_zero] at this
  · have h1 : BytesAt b (o + 8 + 64 * r) (recE e i k (par i k) (txt i k)) := by
      rw [Nat.add_assoc]
      refine bytesAt_trans _ _ _ _ _ h ?_
      unfold sectionE
      have := bytesAt_right (encW e 8 (natF64 L.length).bits) _ _ _ (bytesAt_flatMap 64
        (fun t : Nat × Nat => recE e t.1 t.2 (par t.1 t.2) (txt t.1 t.2)) L (fun _ _ => recE_length _ _ _ _ _) r (i, k) hr)
      rw [encW_length, Nat.mul_comm] at this
      exact this
    obtain ⟨hi, hk⟩ := hb i k (List.mem_of_getElem? hr)
    obtain ⟨⟨v, k1, k1'⟩, ⟨w, k2, k2'⟩, k3, k4⟩ := recE_at e i k (par i k) (txt i k) hi hk
    refine ⟨⟨v, ?_, k1'⟩, ⟨w, bytesAt_trans _ _ _ _ _ h1 k2, k2'⟩, fun j hj => ?_, s8_length _, bytesAt_trans _ _ _ _ _ h1 k4⟩
    · have := bytesAt_trans _ _ _ _ _ h1 k1
      rwa [Nat.add_zero] at this
    · have := bytesAt_trans _ _ _ _ _ h1 (k3 j hj)
      rwa [← Nat.add_assoc] at this

theorem s8_curve (t : Name) (h : t = [] ∨ ∃ c, t = [c] ∧ c.toNat < 128) (hn : t ≠ []) : s8 (encodeT t) = encodeT t ++ List.replicate 7 0 := by
  rcases h with rfl | ⟨c, rfl, -⟩
  · exact absurd rfl hn
  · rfl

theorem s8_name (t : Name) (h : t.length ≤ 3) : s8 (encodeT (ljust 8 t)) = encodeT (t ++ List.replicate (8 - t.length) ' ') := by
  have hl : (encodeT (ljust 8 t)).length = 8 := by
    rw [encodeT_length]
    unfold ljust
    rw [List.length_append, List.length_replicate]
    omega
  unfold s8
  rw [List.take_of_length_le hl.le, hl]
  simp [ljust]

theorem section_size {α : Type} (e : Endian) (L : List α) (g : α → Bytes) (h : ∀ a ∈ L, (g a).length = 64) :
    (sectionE e L g).length = 8 + 64 * L.length := by
  unfold sectionE
  rw [List.length_append, encW_length, flatMap_length_const 64 g L h, Nat.mul_comm]

theorem sectionAt_congr (e : Endian) (b : Bytes) (o : Nat) (L : List (Nat × Nat)) (par par' : Nat → Nat → Nat → F64) (txt txt' : Nat → Nat → Bytes)
    (hp : ∀ i k, (i, k) ∈ L → ∀ j < 5, par i k j = par' i k j) (ht : ∀ i k, (i, k) ∈ L → txt i k = txt' i k) (h : SectionAt e b o L par txt) :
    SectionAt e b o L par' txt' := by
  refine ⟨h.1, fun r i k hr => ?_⟩
  have hm := List.mem_of_getElem? hr
  obtain ⟨h1, h2, h3, h4, h5⟩ := h.2 r i k hr
  rw [ht i k hm] at h4 h5
  exact ⟨h1, h2, fun j hj => hp i k hm j hj ▸ h3 j hj, h4, h5⟩

/-- **C98**: `writere2` writes the layout of `.re2` files, in the byte order of the mesh. -/
theorem C98 (native : Endian) (M : HexaData F64) (h : Re2Mesh M) (hs : M.nel < 10 ^ 9) :
    ∃ f C B, writere2 native M = (some f, none) ∧ Re2Layout (M.endian.getD native) M f C B := by
  have he : fileEndian native M.endian = M.endian.getD native := by cases M.endian <;> rfl
  refine ⟨_, curvedEdges M, bcFaces M, writere2_ok native M h, ?_⟩
  rw [he]
  generalize M.endian.getD native = e
  have hd : M.ndim < 1000 := by have := h.dim; omega
  have h80 : (encodeT (re2Text M.nel M.ndim)).length = 80 := by rw [encodeT_length, re2Text_length _ _ hs hd]
  have hlg : (M.elem.flatMap fun el => geomE e M.ndim el.pos).length = M.nel * (8 * (M.ndim * 2 ^ M.ndim + 1)) := by
    rw [re2Geom_length e M h.len]; ring
  have hlc : (curvesE e M).length = 8 + 64 * (curvedEdges M).length := section_size _ _ _ fun _ _ => recE_length _ _ _ _ _
  have hlf : ∀ b, (fieldE e M b).length = 8 + 64 * (bcFaces M b).length := fun b => section_size _ _ _ fun _ _ => recE_length _ _ _ _ _
  -- the parts of the file
  have p1 : BytesAt (re2File e M) 80 (encW e 4 (Flt.ofRat (eb := 8) (mb := 23) false (654321 / 100000)).bits) := by
    unfold re2File
    have := bytesAt_right (encodeT (re2Text M.nel M.ndim)) _ _ 0 (bytesAt_left (encW e 4 (Flt.ofRat (eb := 8) (mb := 23) false (654321 / 100000)).bits)
      ((M.elem.flatMap fun el => geomE e M.ndim el.pos) ++ (curvesE e M ++ (List.range M.nbc).flatMap (fieldE e M))))
    rwa [h80] at this
  have p2 : ∀ o w, BytesAt ((M.elem.flatMap fun el => geomE e M.ndim el.pos) ++ (curvesE e M ++ (List.range M.nbc).flatMap (fieldE e M))) o w →
      BytesAt (re2File e M) (84 + o) w := by
    intro o w hw
    unfold re2File
    have := bytesAt_right (encodeT (re2Text M.nel M.ndim)) _ _ _ (bytesAt_right (encW e 4 (Flt.ofRat (eb := 8) (mb := 23) false (654321 / 100000)).bits) _ _ _ hw)
    rw [h80, encW_length, ← Nat.add_assoc] at this
    exact this
  have p3 : ∀ i < M.nel, BytesAt (re2File e M) (84 + i * (8 * (M.ndim * 2 ^ M.ndim + 1))) (geomE e M.ndim (M.el i).pos) := by
    intro i hi
    refine p2 _ _ (bytesAt_app _ _ _ _ ?_)
    refine bytesAt_flatMap _ (fun el : Elem F64 => geomE e M.ndim el.pos) M.elem (fun el _ => by rw [geomE_length, Nat.mul_comm]) i (M.el i) ?_
    have hil : i < M.elem.length := by rw [h.len]; exact hi
    unfold HexaData.el
    rw [List.getD_eq_getElem?_getD, List.getElem?_eq_getElem hil]
    rfl
  have p4 : ∀ o w, BytesAt (curvesE e M ++ (List.range M.nbc).flatMap (fieldE e M)) o w → BytesAt (re2File e M) (curvesOff M + o) w := by
    intro o w hw
    have := p2 _ _ (bytesAt_right _ _ _ _ hw)
    rwa [hlg, ← Nat.add_assoc] at this
  have p5 : ∀ b < M.nbc, BytesAt (re2File e M) (fieldOff M (curvedEdges M) (bcFaces M) b) (fieldE e M b) := by
    intro b hb
    have hsplit : (List.range M.nbc).flatMap (fieldE e M) =
        (List.range b).flatMap (fieldE e M) ++ (fieldE e M b ++ (List.range' (b + 1) (M.nbc - b - 1)).flatMap (fieldE e M)) := by
      have : List.range M.nbc = List.range b ++ b :: List.range' (b + 1) (M.nbc - b - 1) := by
        have h1 := List.range'_append_1 (s := 0) (m := b) (n := M.nbc - b - 1 + 1)
        rw [Nat.zero_add] at h1
        rw [List.range_eq_range', List.range_eq_range', ← List.range'_succ, h1]
        congr 1
        omega
      rw [this, List.flatMap_append, List.flatMap_cons]
    have hq := bytesAt_right ((List.range b).flatMap (fieldE e M)) _ _ 0
      (bytesAt_left (fieldE e M b) ((List.range' (b + 1) (M.nbc - b - 1)).flatMap (fieldE e M)))
    rw [← hsplit] at hq
    have := p4 _ _ (bytesAt_right (curvesE e M) _ _ _ hq)
    rw [hlc, List.length_flatMap, Nat.add_zero, ← Nat.add_assoc] at this
    simp only [hlf] at this
    exact this
  refine ⟨?_, ⟨_, p1, rfl⟩, fun i hi => ?_, fun i hi d hdd v hv iz iy ix hvo => ?_, ⟨?_, fun i k => ?_⟩, ?_, fun b hb => ⟨?_, fun i k => ?_⟩,
    fun b hb => ?_, ?_⟩
  · refine ⟨rjust 9 (decI M.nel), rjust 3 (decI M.ndim), " this is the hdr".toList ++ List.replicate 38 ' ', ?_,
      column_rjust _ _ (decN_length_le 8 _ hs), column_rjust _ _ (decN_length_le 2 _ hd), by decide⟩
    have ht : re2Text M.nel M.ndim = "#v002".toList ++ rjust 9 (decI M.nel) ++ rjust 3 (decI M.ndim) ++ rjust 9 (decI M.nel) ++
        (" this is the hdr".toList ++ List.replicate 38 ' ') := by
      unfold re2Text ljust
      have c1 := (column_rjust 9 M.nel (decN_length_le 8 _ hs)).1
      have c2 := (column_rjust 3 M.ndim (decN_length_le 2 _ hd)).1
      have e1 : "#v002".toList.length = 5 := by decide
      have e2 : " this is the hdr".toList.length = 16 := by decide
      rw [List.length_append, List.length_append, List.length_append, List.length_append, c1, c2, e1, e2, List.append_assoc _ " this is the hdr".toList]
    rw [← ht]
    unfold re2File
    exact bytesAt_left _ _
  · refine numberAt_nat e _ _ 0 (by norm_num) ?_
    have := bytesAt_trans _ _ _ _ _ (p3 i hi) (bytesAt_flatMap 8 (fun x : F64 => encW e 8 x.bits)
      ((List.range (2 ^ M.ndim * M.ndim + 1)).map (re2Coord M.ndim (M.el i).pos)) (fun _ _ => encW_length _ _ _) 0 0 (by
        rw [List.getElem?_map, List.getElem?_range (by omega)]
        rfl))
    rw [natF64_zero_bits]
    rw [Nat.zero_mul, Nat.add_zero] at this
    exact this
  · obtain ⟨hz, hy, hx, hvv⟩ : iz < M.ndim - 1 ∧ iy < 2 ∧ ix < 2 ∧ v = 4 * iz + vertNo iy ix := by
      have hv8 : v < 8 := by
        rcases h.dim with hd | hd <;> rw [hd] at hv <;> omega
      have hz : iz ≤ v / 4 := by
        interval_cases v <;> simp [vertexOrder] at hvo <;> omega
      have hz' : v / 4 < M.ndim - 1 := by
        rcases h.dim with hd | hd <;> rw [hd] at hv ⊢ <;> omega
      refine ⟨by omega, ?_⟩
      clear hv hz hz'
      interval_cases v <;> simp [vertexOrder] at hvo <;> obtain ⟨rfl, rfl, rfl⟩ := hvo <;> decide
    obtain ⟨k1, k2⟩ := re2Coord_at M.ndim h.dim (M.el i).pos d iz iy ix hdd hz hy hx
    have hk : 1 + 2 ^ M.ndim * d + v = 2 ^ M.ndim * d + 4 * iz + 1 + vertNo iy ix := by omega
    have := bytesAt_trans _ _ _ _ _ (p3 i hi) (bytesAt_flatMap 8 (fun x : F64 => encW e 8 x.bits)
      ((List.range (2 ^ M.ndim * M.ndim + 1)).map (re2Coord M.ndim (M.el i).pos)) (fun _ _ => encW_length _ _ _) (1 + 2 ^ M.ndim * d + v)
      ((M.el i).pos.dat d iz iy ix) (by
        rw [hk, List.getElem?_map, List.getElem?_range k1, Option.map_some, k2]))
    rw [Nat.mul_comm _ 8] at this
    exact this
  · exact (prod2_sorted _ _).filter _
  · rw [mem_curvedEdges, h.len]
  · have hb : ∀ i k, (i, k) ∈ curvedEdges M → i < M.nel ∧ k < 12 ∧ (M.el i).ccurv k ≠ [] := by
      intro i k hm
      rwa [mem_curvedEdges, h.len] at hm
    have hlen := curvedEdges_length M
    rw [h.len] at hlen
    refine sectionAt_congr e _ _ _ _ _ _ _ (fun _ _ _ _ _ => rfl) (fun i k hm => ?_) (section_at e (re2File e M) (curvesOff M) (curvedEdges M)
      (fun i k j => (M.el i).curv k j) (fun i k => encodeT ((M.el i).ccurv k)) (by omega) (fun i k hm => ?_) ?_)
    · obtain ⟨h1, h2, h3⟩ := hb i k hm
      exact s8_curve _ (h.curv i h1 k h2) h3
    · obtain ⟨h1, h2, h3⟩ := hb i k hm
      omega
    · exact p4 0 _ (bytesAt_left _ _)
  · exact (prod2_sorted _ _).filter _
  · rw [mem_bcFaces, h.len]
    rfl
  · have hbb : ∀ i k, (i, k) ∈ bcFaces M b → i < M.nel ∧ k < 2 * M.ndim ∧ Stored (M.bc i b k).typ := by
      intro i k hm
      rwa [mem_bcFaces, h.len] at hm
    have hlen := bcFaces_length M b
    rw [h.len] at hlen
    have hlen' : (bcFaces M b).length ≤ M.nel * 6 := hlen.trans (Nat.mul_le_mul_left _ (by have := h.dim; omega))
    refine sectionAt_congr e _ _ _ _ _ _ _ (fun i k _ j hj => ?_) (fun i k hm => ?_) (section_at e (re2File e M) _ (bcFaces M b)
      (fun i k => (M.bc i b k).par) (fun i k => encodeT (ljust 8 (M.bc i b k).typ)) (by omega) (fun i k hm => ?_) (p5 b hb))
    · interval_cases j <;> rfl
    · obtain ⟨h1, h2, h3⟩ := hbb i k hm
      exact s8_name _ (h.names i h1 b hb k h2).1
    · obtain ⟨h1, h2, h3⟩ := hbb i k hm
      have := h.dim
      omega
  · unfold re2File fieldOff curvesOff
    rw [List.length_append, List.length_append, List.length_append, List.length_append, h80, encW_length, hlg, hlc, List.length_flatMap]
    simp only [hlf]
    omega

/-- The example of C16. -/
example : ∃ f C B, writere2 .little (Samples.re2Mesh .big) = (some f, none) ∧ Re2Layout .big (Samples.re2Mesh .big) f C B :=
  C98 .little _ (Samples.re2Mesh_ok _) (by decide)

end Pymech
