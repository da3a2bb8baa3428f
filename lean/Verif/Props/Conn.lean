import Verif.Lemmas.List
import Verif.Samples
import Verif.Lemmas.Basic
import Mathlib.Algebra.BigOperators.Group.List.Basic

/-!
# C43 `offset_connectivity`, C44 `update_ncurv`, C45 `get_points`
-/

set_option linter.unusedSectionVars false

namespace Pymech

open Spec

variable {F : Type} [Field F] [LinearOrder F] [IsStrictOrderedRing F] [FloorRing F]

/-! ## C43 -/

namespace Spec

/-- The record after shifting by `k` the references to elements with zero-based index at least `m`
(`isLate`: the record belongs to such an element). -/
def shifted (k : Int) (m : Nat) (isLate : Prop) [Decidable isLate] (r : BC F) : BC F where
  typ := r.typ
  own := if isLate ∧ (m : Int) ≤ r.own - 1 then r.own + k else r.own
  ownFace := r.ownFace
  p3 := if (r.typ = nE ∨ r.typ = nP) ∧ (m : Int) ≤ trunc r.p3 - 1 then r.p3 + k else r.p3
  p4 := r.p4
  p5 := r.p5
  p6 := r.p6
  p7 := r.p7

end Spec

theorem offset_typ (k m : Int) (r : BC F) : (BC.offsetLink k m r).typ = r.typ := by
  unfold BC.offsetLink; split_ifs <;> rfl

theorem offset_rec (k : Int) (m : Nat) (P : Prop) [Decidable P] (r : BC F) :
    (if P then BC.offsetOwn k m (BC.offsetLink k m r) else BC.offsetLink k m r) = shifted k m P r := by
  unfold BC.offsetOwn BC.offsetLink shifted
  have e1 : ((m : Int) ≤ trunc r.p3 - 1) ↔ trunc r.p3 > m := by omega
  have e2 : ((m : Int) ≤ r.own - 1) ↔ r.own > m := by omega
  simp only [e1, e2]
  by_cases hP : P <;> by_cases h1 : ((r.typ = nE ∨ r.typ = nP) ∧ trunc r.p3 > (m : Int)) <;>
    by_cases h2 : r.own > (m : Int) <;> simp [hP, h1, h2]

theorem offset_length (M : HexaData F) (k : Int) (m : Nat) :
    (M.offsetConnectivity k m).elem.length = M.elem.length := by
  simp [HexaData.offsetConnectivity, mapFrom]

theorem offset_el (M : HexaData F) (k : Int) (m e : Nat) (he : e < M.elem.length) :
    (M.offsetConnectivity k m).el e = { M.el e with
      bcs := fun b f => if b < M.nbc ∧ f < 2 * M.ndim then shifted k m (m ≤ e) (M.bc e b f) else M.bc e b f } := by
  rw [HexaData.el_eq_getElem _ e (by rw [offset_length]; exact he)]
  simp only [HexaData.offsetConnectivity, mapFrom, List.getElem_mapIdx, List.getElem_map, ← M.el_eq_getElem e he]
  by_cases hm : m ≤ e
  · rw [if_pos hm]
    unfold Elem.mapBC HexaData.bc
    congr 1
    funext b f
    by_cases hbf : b < M.nbc ∧ f < 2 * M.ndim
    · simp only [hbf, and_self, if_true]
      have := offset_rec (F := F) k m (m ≤ e) ((M.el e).bcs b f)
      rw [if_pos hm] at this
      exact this
    · simp only [hbf, if_false]
  · rw [if_neg hm]
    unfold Elem.mapBC HexaData.bc
    congr 1
    funext b f
    by_cases hbf : b < M.nbc ∧ f < 2 * M.ndim
    · simp only [hbf, and_self, if_true]
      have := offset_rec (F := F) k m (m ≤ e) ((M.el e).bcs b f)
      rw [if_neg hm] at this
      exact this
    · simp only [hbf, if_false]

/-- **C43.** `offset_connectivity(k, m)` changes nothing but the records of the `nbc` fields and `2*ndim` faces, and
there it shifts exactly the links to elements with index at least `m` (and the own index of these elements). -/
theorem offset_connectivity_spec (M : HexaData F) (k : Int) (m : Nat) :
    (M.offsetConnectivity k m) = { M with elem := (M.offsetConnectivity k m).elem } ∧
    (M.offsetConnectivity k m).elem.length = M.elem.length ∧
    ∀ e < M.elem.length, (M.offsetConnectivity k m).el e = { M.el e with
      bcs := fun b f => if b < M.nbc ∧ f < 2 * M.ndim then shifted k m (m ≤ e) (M.bc e b f) else M.bc e b f } :=
  ⟨rfl, offset_length M k m, fun e he => offset_el M k m e he⟩

/-- In the channel the face 1 of element 0 points to element 1 (stored as 2); after an offset by 10 of the elements from
1 on it is stored as 12, while the link back to element 0 is still stored as 1. -/
example : ((Samples.channel.offsetConnectivity 10 1).bc 0 0 1).p3 = 12 ∧
    ((Samples.channel.offsetConnectivity 10 1).bc 1 0 3).p3 = 1 := by decide +kernel

/-- **C43.** In terms of links: a link to element `y.1 ≥ m` now names element `y.1 + k`, a link to an earlier element
is unchanged. -/
theorem offset_connectivity_link (M : HexaData F) (k : Int) (m e b f : Nat) (he : e < M.elem.length) (hb : b < M.nbc)
    (hf : f < 2 * M.ndim) (y : Face) (hl : IsLink (M.bc e b f)) (hp : PointsTo (M.bc e b f) y) :
    (m ≤ y.1 → ∀ z : Nat, (z : Int) = y.1 + k → PointsTo ((M.offsetConnectivity k m).bc e b f) (z, y.2)) ∧
    (y.1 < m → PointsTo ((M.offsetConnectivity k m).bc e b f) y) := by
  have hrec : (M.offsetConnectivity k m).bc e b f = shifted k m (m ≤ e) (M.bc e b f) := by
    unfold HexaData.bc
    rw [offset_el M k m e he]
    simp [hb, hf, HexaData.bc]
  rw [hrec]
  obtain ⟨h3, h4⟩ := hp
  have hl' : (M.bc e b f).typ = nE ∨ (M.bc e b f).typ = nP := hl
  constructor
  · intro hm z hz
    refine ⟨?_, h4⟩
    have hpos : 0 ≤ (M.bc e b f).p3 := by
      by_contra hneg
      have : trunc (M.bc e b f).p3 ≤ 0 := by
        unfold trunc; rw [if_neg hneg]
        exact Int.ceil_le.2 (by simpa using (not_le.1 hneg).le)
      omega
    have hfl : trunc (M.bc e b f).p3 = ⌊(M.bc e b f).p3⌋ := by unfold trunc; rw [if_pos hpos]
    have hpos2 : 0 ≤ (M.bc e b f).p3 + (k : F) := by
      have : ((y.1 : Int) + 1 : Int) ≤ ((M.bc e b f).p3 : F) := by rw [← h3, hfl]; exact Int.floor_le _
      have h0 : (0 : Int) ≤ (y.1 : Int) + 1 + k := by omega
      have h0' : (0 : F) ≤ (((y.1 : Int) + 1 + k : Int) : F) := by exact_mod_cast h0
      push_cast at h0' this
      linarith
    unfold shifted
    simp only [hl', true_and]
    rw [if_pos (by omega), trunc_add_int _ _ hpos hpos2, h3]
    omega
  · intro hm
    refine ⟨?_, h4⟩
    have : (shifted k m (m ≤ e) (M.bc e b f)).p3 = (M.bc e b f).p3 := if_neg (by rintro ⟨_, h⟩; omega)
    rw [this]
    exact h3

example : IsLink (Samples.channel.bc 0 0 1) ∧ PointsTo (Samples.channel.bc 0 0 1) (1, 3) := by
  unfold IsLink PointsTo; decide +kernel

/-- Nothing crosses the threshold: all references past `m` stay past `m` after adding `k`. -/
def Spec.StaysPast (M : HexaData F) (k : Int) (m : Nat) : Prop :=
  ∀ e < M.elem.length, ∀ b < M.nbc, ∀ f < 2 * M.ndim,
    (IsLink (M.bc e b f) → (m : Int) ≤ trunc (M.bc e b f).p3 - 1 → (m : Int) ≤ trunc ((M.bc e b f).p3 + (k : F)) - 1) ∧
    (m ≤ e → (m : Int) ≤ (M.bc e b f).own - 1 → (m : Int) ≤ (M.bc e b f).own + k - 1)

theorem shifted_shifted (k k' : Int) (m : Nat) (P : Prop) [Decidable P] (r : BC F)
    (h1 : IsLink r → (m : Int) ≤ trunc r.p3 - 1 → (m : Int) ≤ trunc (r.p3 + (k : F)) - 1)
    (h2 : P → (m : Int) ≤ r.own - 1 → (m : Int) ≤ r.own + k - 1) :
    shifted k' m P (shifted k m P r) = shifted (k + k') m P r := by
  unfold shifted
  simp only [BC.mk.injEq, true_and]
  refine ⟨?_, ?_, trivial⟩
  · by_cases c : P ∧ (m : Int) ≤ r.own - 1
    · rw [if_pos c]
      rw [if_pos ⟨c.1, h2 c.1 c.2⟩, if_pos c]
      omega
    · rw [if_neg c, if_neg c, if_neg c]
  · by_cases c : (r.typ = nE ∨ r.typ = nP) ∧ (m : Int) ≤ trunc r.p3 - 1
    · rw [if_pos c]
      rw [if_pos ⟨c.1, h1 c.1 c.2⟩, if_pos c]
      push_cast
      ring
    · rw [if_neg c, if_neg c, if_neg c]

theorem hexa_ext {A B : HexaData F} (h : A = { B with elem := A.elem }) (hl : A.elem.length = B.elem.length)
    (he : ∀ e < B.elem.length, A.el e = B.el e) : A = B := by
  have : A.elem = B.elem := by
    apply List.ext_getElem hl
    intro i h1 h2
    have := he i h2
    rw [A.el_eq_getElem i h1, B.el_eq_getElem i h2] at this
    exact this
  rw [h, this]

/-- **C43.** Offsets with the same threshold add up, as long as no reference crosses the threshold in between. -/
theorem offset_connectivity_add (M : HexaData F) (k k' : Int) (m : Nat) (h : StaysPast M k m) :
    (M.offsetConnectivity k m).offsetConnectivity k' m = M.offsetConnectivity (k + k') m := by
  apply hexa_ext rfl (by simp [offset_length])
  intro e he
  rw [offset_length] at he
  rw [offset_el _ k' m e (by rw [offset_length]; exact he), offset_el M (k + k') m e he]
  have hb : ∀ b f, (M.offsetConnectivity k m).bc e b f =
      if b < M.nbc ∧ f < 2 * M.ndim then shifted k m (m ≤ e) (M.bc e b f) else M.bc e b f := by
    intro b f
    conv_lhs => unfold HexaData.bc
    rw [offset_el M k m e he]
  rw [offset_el M k m e he]
  refine congrArg (fun g => ({ M.el e with bcs := g } : Elem F)) ?_
  funext b f
  rw [hb b f]
  change (if b < M.nbc ∧ f < 2 * M.ndim then _ else _) = _
  by_cases c : b < M.nbc ∧ f < 2 * M.ndim
  · simp only [c, and_self, if_true]
    exact shifted_shifted k k' m (m ≤ e) _ (h e he b c.1 f c.2).1 (h e he b c.1 f c.2).2
  · simp only [c, if_false]

theorem shifted_zero (m : Nat) (P : Prop) [Decidable P] (r : BC F) : shifted 0 m P r = r := by
  unfold shifted
  cases r
  simp

/-- **C43.** Offsetting by `k` and then by `-k` restores the mesh, as long as no reference crosses the threshold. -/
theorem offset_connectivity_cancel (M : HexaData F) (k : Int) (m : Nat) (h : StaysPast M k m) :
    (M.offsetConnectivity k m).offsetConnectivity (-k) m = M := by
  rw [offset_connectivity_add M k (-k) m h]
  apply hexa_ext rfl (offset_length _ _ _)
  intro e he
  rw [offset_el M _ m e he]
  unfold HexaData.bc
  simp only [add_neg_cancel, shifted_zero, ite_self]

/- The hypothesis holds e.g. for the channel and any positive offset. -/
set_option synthInstance.maxHeartbeats 200000 in
set_option synthInstance.maxSize 1000 in
example : StaysPast Samples.channel 5 1 := by unfold StaysPast IsLink; decide +kernel
set_option synthInstance.maxHeartbeats 200000 in
set_option synthInstance.maxSize 1000 in
example : ¬ StaysPast Samples.channel (-1) 1 := by unfold StaysPast IsLink; decide +kernel

/-! ## C44 -/

/-- **C44.** `update_ncurv` sets `ncurv` to the number of (element, edge) pairs with a curvature type and changes
nothing else. -/
theorem update_ncurv_spec {F : Type} (M : HexaData F) :
    M.updateNcurv = { M with ncurv :=
      (M.elem.map fun el => ((List.range 12).filter fun i => el.ccurv i ≠ []).length).sum } := by
  unfold HexaData.updateNcurv
  congr 1
  have inner : ∀ (el : Elem F) (l : List Nat) (n : Nat),
      l.foldl (fun n i => if el.ccurv i ≠ [] then n + 1 else n) n = n + (l.filter fun i => el.ccurv i ≠ []).length := by
    intro el l
    induction l with
    | nil => intro n; rfl
    | cons a l ih =>
      intro n
      simp only [List.foldl_cons, List.filter_cons]
      rw [ih]
      by_cases h : el.ccurv a = []
      · simp [h]
      · simp [h]; omega
  have outer : ∀ (l : List (Elem F)) (n : Nat),
      l.foldl (fun n el => (List.range 12).foldl (fun n i => if el.ccurv i ≠ [] then n + 1 else n) n) n
        = n + (l.map fun el => ((List.range 12).filter fun i => el.ccurv i ≠ []).length).sum := by
    intro l
    induction l with
    | nil => intro n; rfl
    | cons a l ih =>
      intro n
      simp only [List.foldl_cons, List.map_cons, List.sum_cons]
      rw [ih, inner]
      omega
  rw [outer]
  omega

/-- **C44.** `update_ncurv` is idempotent. -/
theorem update_ncurv_idem (M : HexaData F) : M.updateNcurv.updateNcurv = M.updateNcurv := rfl

example : ({ Samples.channel with elem := Samples.channel.elem.map fun el =>
    { el with ccurv := fun e => if e < 3 then ['C'] else [] } } : HexaData ℚ).updateNcurv.ncurv = 12 := by decide +kernel

/-! ## C45 -/

theorem ravel_get (el : Elem F) (k j i : Nat) (hk : k < el.pos.lz) (hj : j < el.pos.ly) (hi : i < el.pos.lx) :
    el.ravel[(k * el.pos.ly + j) * el.pos.lx + i]? = some (el.pt k j i) := by
  have hji : j * el.pos.lx + i < el.pos.ly * el.pos.lx := by
    calc j * el.pos.lx + i < j * el.pos.lx + el.pos.lx := by omega
      _ = (j + 1) * el.pos.lx := by ring
      _ ≤ el.pos.ly * el.pos.lx := Nat.mul_le_mul_right _ hj
  have e : (k * el.pos.ly + j) * el.pos.lx + i = k * (el.pos.ly * el.pos.lx) + (j * el.pos.lx + i) := by ring
  rw [e]
  unfold Elem.ravel
  rw [getElem?_flatMap_range _ (el.pos.ly * el.pos.lx) _ _ k _ hk hji]
  · rw [getElem?_flatMap_range _ el.pos.lx _ _ j i hj hi]
    · simp [hi]
    · intro j _; simp
  · intro k _
    rw [length_flatMap_range _ el.pos.lx]
    intro j _; simp

theorem mapM_ok {α β : Type} (l : List α) (g : α → Py β) (h : α → β) (hg : ∀ x ∈ l, g x = .ok (h x)) :
    l.mapM g = .ok (l.map h) := by
  induction l with
  | nil => rfl
  | cons a l ih =>
    rw [List.mapM_cons, hg a (by simp), ih (fun x hx => hg x (by simp [hx]))]
    rfl

/-- **C45.** For a mesh whose metadata agree with its elements, `get_points` returns for element `e` at position
`(iz*ly1+iy)*lx1+ix` the point `pos[:, iz, iy, ix]`, and nothing else. -/
theorem get_points_spec (M : HexaData F) (hn : M.nel = M.elem.length)
    (hs : ∀ el ∈ M.elem, el.pos.lx = M.lr1.x ∧ el.pos.ly = M.lr1.y ∧ el.pos.lz = M.lr1.z) :
    ∃ P, M.getPoints = .ok P ∧ P.length = M.nel ∧
      ∀ e < M.nel, ∃ row, P[e]? = some row ∧ row.length = M.lr1.x * M.lr1.y * M.lr1.z ∧
        ∀ iz < M.lr1.z, ∀ iy < M.lr1.y, ∀ ix < M.lr1.x,
          row[(iz * M.lr1.y + iy) * M.lr1.x + ix]? =
            some ⟨(M.el e).pos.dat 0 iz iy ix, (M.el e).pos.dat 1 iz iy ix, (M.el e).pos.dat 2 iz iy ix⟩ := by
  refine ⟨(List.range M.nel).map fun i => (M.el i).ravel, ?_, by simp, ?_⟩
  · unfold HexaData.getPoints
    refine mapM_ok _ _ _ fun i hi => ?_
    rw [List.mem_range, hn] at hi
    obtain ⟨h1, h2, h3⟩ := hs _ (M.el_mem i hi)
    rw [if_pos hi]
    simp only [h1, h2, h3]
    rw [if_pos (by ring)]
  · intro e he
    rw [hn] at he
    obtain ⟨h1, h2, h3⟩ := hs _ (M.el_mem e he)
    refine ⟨(M.el e).ravel, by simp [hn, he], ?_, ?_⟩
    · unfold Elem.ravel
      rw [length_flatMap_range _ (M.lr1.y * M.lr1.x), h3]
      · ring
      · intro k _
        rw [length_flatMap_range _ M.lr1.x, h2]
        intro j _; simp [h1]
    · intro iz hz iy hy ix hx
      have := ravel_get (M.el e) iz iy ix (h3 ▸ hz) (h2 ▸ hy) (h1 ▸ hx)
      rw [h1, h2] at this
      exact this

example : Samples.channel.nel = Samples.channel.elem.length ∧ ∀ el ∈ Samples.channel.elem,
    el.pos.lx = Samples.channel.lr1.x ∧ el.pos.ly = Samples.channel.lr1.y ∧ el.pos.lz = Samples.channel.lr1.z := by
  decide +kernel
example : (match Samples.channel.getPoints with | .ok P => P[3]? | _ => none) =
    some [⟨1, 1, 0⟩, ⟨2, 1, 0⟩, ⟨1, 2, 0⟩, ⟨2, 2, 0⟩] := by decide +kernel

/-- An element that cannot be stored in its row. -/
def Spec.BadRow (M : HexaData F) (i : Nat) : Prop :=
  i < M.elem.length ∧ (M.el i).pos.lz * (M.el i).pos.ly * (M.el i).pos.lx ≠ M.lr1.x * M.lr1.y * M.lr1.z ∧
    (M.el i).pos.lz * (M.el i).pos.ly * (M.el i).pos.lx ≠ 1

/-- **C45**, when it fails: exactly if the number of points of one of the first `nel` elements is neither that of the metadata nor one; and
always with a `ValueError`. -/
theorem get_points_fails (M : HexaData F) :
    ((∃ i < M.nel, Spec.BadRow M i) → M.getPoints = .error .valueError) ∧
    ((∀ i < M.nel, ¬ Spec.BadRow M i) → ∃ P, M.getPoints = .ok P ∧ P.length = M.nel) := by
  set g : Nat → Py (List (V3 F)) := fun i =>
    if i < M.elem.length then
      if (M.el i).pos.lz * (M.el i).pos.ly * (M.el i).pos.lx = M.lr1.x * M.lr1.y * M.lr1.z then .ok (M.el i).ravel
      else if (M.el i).pos.lz * (M.el i).pos.ly * (M.el i).pos.lx = 1 then .ok (List.replicate (M.lr1.x * M.lr1.y * M.lr1.z) ((M.el i).pt 0 0 0))
      else .error .valueError
    else .ok (List.replicate (M.lr1.x * M.lr1.y * M.lr1.z) ⟨0, 0, 0⟩) with hg
  have hM : M.getPoints = (List.range M.nel).mapM g := rfl
  have bad : ∀ i, Spec.BadRow M i → g i = .error .valueError := by
    rintro i ⟨h1, h2, h3⟩
    simp only [hg]
    rw [if_pos h1, if_neg h2, if_neg h3]
  have good : ∀ i, ¬ Spec.BadRow M i → ∃ r, g i = .ok r := by
    intro i h
    simp only [hg]
    by_cases h1 : i < M.elem.length
    · rw [if_pos h1]
      by_cases h2 : (M.el i).pos.lz * (M.el i).pos.ly * (M.el i).pos.lx = M.lr1.x * M.lr1.y * M.lr1.z
      · rw [if_pos h2]; exact ⟨_, rfl⟩
      · rw [if_neg h2]
        by_cases h3 : (M.el i).pos.lz * (M.el i).pos.ly * (M.el i).pos.lx = 1
        · rw [if_pos h3]; exact ⟨_, rfl⟩
        · exact absurd ⟨h1, h2, h3⟩ h
    · rw [if_neg h1]; exact ⟨_, rfl⟩
  rw [hM]
  have key : ∀ l : List Nat, ((∃ i ∈ l, Spec.BadRow M i) → l.mapM g = .error .valueError) ∧
      ((∀ i ∈ l, ¬ Spec.BadRow M i) → ∃ P, l.mapM g = .ok P ∧ P.length = l.length) := by
    intro l
    induction l with
    | nil => exact ⟨fun ⟨i, hi, _⟩ => by simp at hi, fun _ => ⟨[], rfl, rfl⟩⟩
    | cons a l ih =>
      rw [List.mapM_cons]
      constructor
      · rintro ⟨i, hi, hb⟩
        by_cases ha : Spec.BadRow M a
        · rw [bad a ha]; rfl
        · obtain ⟨r, hr⟩ := good a ha
          rw [hr]
          have : i ∈ l := by
            rcases List.mem_cons.1 hi with rfl | h
            · exact absurd hb ha
            · exact h
          simp only [bind, Except.bind]
          rw [ih.1 ⟨i, this, hb⟩]
      · intro h
        obtain ⟨r, hr⟩ := good a (h a (by simp))
        obtain ⟨P, h1, h2⟩ := ih.2 (fun i hi => h i (by simp [hi]))
        rw [hr, h1]
        exact ⟨r :: P, rfl, by simp [h2]⟩
  obtain ⟨k1, k2⟩ := key (List.range M.nel)
  refine ⟨fun ⟨i, hi, hb⟩ => k1 ⟨i, List.mem_range.2 hi, hb⟩, fun h => ?_⟩
  obtain ⟨P, h1, h2⟩ := k2 (fun i hi => h i (List.mem_range.1 hi))
  exact ⟨P, h1, by simpa using h2⟩

/-- **C45**, rows without an element, if the list of elements is shorter than `nel`, are zero. -/
theorem get_points_missing (M : HexaData F) (P : List (List (V3 F))) (h : M.getPoints = .ok P) (e : Nat) (he : e < M.nel) (hm : M.elem.length ≤ e) :
    P[e]? = some (List.replicate (M.lr1.x * M.lr1.y * M.lr1.z) ⟨0, 0, 0⟩) := by
  have key : ∀ (l : List Nat) (g : Nat → Py (List (V3 F))) (P : List (List (V3 F))), l.mapM g = .ok P →
      ∀ (k x : Nat), l[k]? = some x → ∃ r, P[k]? = some r ∧ g x = .ok r := by
    intro l g
    induction l with
    | nil => intro P _ k x hk; simp at hk
    | cons a l ih =>
      intro P hP k x hk
      rw [List.mapM_cons] at hP
      cases hga : g a with
      | error er => rw [hga] at hP; exact absurd hP (by simp [bind, Except.bind])
      | ok r =>
        rw [hga] at hP
        simp only [bind, Except.bind] at hP
        cases hl : l.mapM g with
        | error er => rw [hl] at hP; exact absurd hP (by simp)
        | ok Q =>
          rw [hl] at hP
          simp only [pure, Except.pure, Except.ok.injEq] at hP
          subst hP
          cases k with
          | zero =>
            simp only [List.getElem?_cons_zero, Option.some.injEq] at hk ⊢
            subst hk
            exact ⟨r, rfl, hga⟩
          | succ k =>
            simp only [List.getElem?_cons_succ] at hk ⊢
            exact ih Q hl k x hk
  obtain ⟨r, h1, h2⟩ := key _ _ P h e e (by simp [he])
  rw [if_neg (by omega)] at h2
  rw [h1, ← Except.ok.inj h2]

/-- A mesh with one element less than announced. -/
example : (match HexaData.getPoints { Samples.channel with elem := Samples.channel.elem.take 3 } with | .ok P => P[3]? | _ => none) =
    some [⟨0, 0, 0⟩, ⟨0, 0, 0⟩, ⟨0, 0, 0⟩, ⟨0, 0, 0⟩] := by decide +kernel
example : (match HexaData.getPoints { Samples.channel with lr1 := ⟨3, 2, 1, true⟩ } with | .error .valueError => true | _ => false) = true := by decide +kernel
example : Spec.BadRow { Samples.channel with lr1 := ⟨3, 2, 1, true⟩ } 0 := by unfold Spec.BadRow; decide +kernel

end Pymech
