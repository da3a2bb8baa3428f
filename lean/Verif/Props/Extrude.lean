import Verif.Props.Box
import Verif.Props.Delete
import Verif.Mesh.Extrude

/-!
# C46–C50 `extrude`
-/

set_option linter.unusedSectionVars false

namespace Pymech

open Spec

variable {F : Type} [Field F] [LinearOrder F] [IsStrictOrderedRing F] [FloorRing F]

namespace Spec

/-- The list of end conditions; periodic in each field if the argument is omitted. -/
def endList (nbc : Nat) (o : Option (List Name)) : List Name := o.getD (List.replicate nbc nP)

/-- In some field exactly one end is periodic. -/
def OneSided (l1 l2 : List Name) : Prop :=
  ∃ (b : Nat) (a c : Name), l1[b]? = some a ∧ l2[b]? = some c ∧ ¬ (a = nP ↔ c = nP)

/-- Usable arguments of `extrude`: a 2D vertex mesh with geometry, at least two z values, one condition per field
and end, periodic at both ends or none. -/
structure ExtrudeArgs (M : HexaData F) (z : List F) (o1 o2 : Option (List Name)) : Prop where
  wf : WF M
  ndim : M.ndim = 2
  lr1 : M.lr1 = ⟨2, 2, 1, true⟩
  var : 2 ≤ M.var.pos
  z : 2 ≤ z.length
  len1 : ∀ l, o1 = some l → M.nbc ≤ l.length
  len2 : ∀ l, o2 = some l → M.nbc ≤ l.length
  ends : ¬ OneSided (endList M.nbc o1) (endList M.nbc o2)

end Spec

theorem oneSidedP_iff (l1 l2 : List Name) : oneSidedP l1 l2 = true ↔ OneSided l1 l2 := by
  unfold oneSidedP OneSided
  rw [List.any_eq_true]
  constructor
  · rintro ⟨p, hp, h⟩
    obtain ⟨b, hb⟩ := List.mem_iff_getElem?.1 hp
    rw [List.getElem?_zip_eq_some] at hb
    refine ⟨b, p.1, p.2, hb.1, hb.2, ?_⟩
    simp only [decide_eq_true_eq] at h
    tauto
  · rintro ⟨b, a, c, h1, h2, h⟩
    refine ⟨(a, c), List.mem_iff_getElem?.2 ⟨b, List.getElem?_zip_eq_some.2 ⟨h1, h2⟩⟩, ?_⟩
    simp only [decide_eq_true_eq]
    tauto

theorem endList_getD (nbc : Nat) (o : Option (List Name)) (b : Nat) (hb : b < nbc) : (endList nbc o).getD b [] = sideBC o b := by
  cases o with
  | none => simp [endList, sideBC, hb]
  | some l => rfl

theorem endList_length (nbc : Nat) (o : Option (List Name)) (h : ∀ l, o = some l → nbc ≤ l.length) : nbc ≤ (endList nbc o).length := by
  cases o with
  | none => simp [endList]
  | some l => exact h l rfl

theorem Spec.ExtrudeArgs.both {M : HexaData F} {z : List F} {o1 o2 : Option (List Name)} (A : ExtrudeArgs M z o1 o2)
    (b : Nat) (hb : b < M.nbc) : sideBC o1 b = nP ↔ sideBC o2 b = nP := by
  by_contra h
  apply A.ends
  have l1 := endList_length _ _ A.len1
  have l2 := endList_length _ _ A.len2
  refine ⟨b, sideBC o1 b, sideBC o2 b, ?_, ?_, h⟩
  · rw [← endList_getD M.nbc o1 b hb, List.getD_eq_getElem?_getD, List.getElem?_eq_getElem (by omega)]; rfl
  · rw [← endList_getD M.nbc o2 b hb, List.getD_eq_getElem?_getD, List.getElem?_eq_getElem (by omega)]; rfl

/-- The element copied into slice `k` before it gets its new geometry and conditions. -/
def sliceElem (M : HexaData F) (ib : Bool) (k i : Nat) : Elem F :=
  if k = 0 then (if ib then M.el i else (deleteInternalBcs M).1.el i) else (M.offsetConnectivity ((k * M.nel : Nat) : Int) 0).el i

theorem extrude_ok {M : HexaData F} {z : List F} {o1 o2 : Option (List Name)} (A : ExtrudeArgs M z o1 o2) (ib : Bool) :
    ∃ R, extrude M z o1 o2 ib = .ok R ∧
      (R.ndim = 3 ∧ R.nel = M.nel * (z.length - 1) ∧ R.nbc = M.nbc ∧ R.lr1 = ⟨2, 2, 2, true⟩ ∧ R.var = ⟨3, 0, 0, 0, 0⟩ ∧
        R.ncurv = 2 * (z.length - 1) * M.ncurv ∧ R.elmap = M.elmap ∧ R.time = M.time ∧ R.istep = M.istep ∧ R.wdsz = M.wdsz ∧
        R.endian = M.endian) ∧
      R.elem.length = M.nel * (z.length - 1) ∧
      ∀ k < z.length - 1, ∀ i < M.nel, R.el (i + M.nel * k) =
        extrudeEnds M.nel (z.length - 1) M.nbc (fun b => (endList M.nbc o1).getD b []) (fun b => (endList M.nbc o2).getD b []) (i + M.nel * k)
          ((if ib then extrudeInner M.nel M.nbc (i + M.nel * k) else id)
            (extrudeGeom (M.el i) (sliceElem M ib k i) (z.getD k 0) (z.getD (k + 1) 0))) := by
  have l1 := endList_length _ _ A.len1
  have l2 := endList_length _ _ A.len2
  have hz := A.z
  have hone : oneSidedP (endList M.nbc o1) (endList M.nbc o2) = false := by
    by_contra h; exact A.ends ((oneSidedP_iff _ _).1 (by simpa using h))
  have hvar := A.var
  have hn := A.wf.nel
  set M0 := if ib then M else (deleteInternalBcs M).1 with hM0
  have hM0len : M0.elem.length = M.nel := by
    rw [hM0, hn]; split_ifs
    · rfl
    · exact (delete_frame M).len
  have hM0el : ∀ i, i < M.nel → M0.elem[i]? = some (sliceElem M ib 0 i) := by
    intro i hi
    rw [List.getElem?_eq_getElem (by omega), ← M0.el_eq_getElem i (by omega)]
    unfold sliceElem
    rw [if_pos rfl, hM0]
    cases ib <;> rfl
  let copies := (List.range (z.length - 1 - 1)).flatMap fun k =>
      (M.offsetConnectivity (((k + 1) * M.nel : Nat) : Int) 0).elem
  have hw : ∀ k < z.length - 1 - 1, ((fun k : Nat => (M.offsetConnectivity (((k + 1) * M.nel : Nat) : Int) 0).elem) k).length = M.nel := by
    intro k _; simp only [offset_length]; exact hn.symm
  have hclen : copies.length = (z.length - 1 - 1) * M.nel := length_flatMap_range _ _ _ hw
  have hall : ∀ k < z.length - 1, ∀ i < M.nel, (M0.elem ++ copies)[i + M.nel * k]? = some (sliceElem M ib k i) := by
    intro k hk i hi
    rcases Nat.eq_zero_or_pos k with rfl | hk0
    · rw [Nat.mul_zero, Nat.add_zero, List.getElem?_append_left (by omega)]
      exact hM0el i hi
    · obtain ⟨k, rfl⟩ : ∃ q, k = q + 1 := ⟨k - 1, by omega⟩
      rw [List.getElem?_append_right (by rw [hM0len, Nat.mul_succ]; omega), hM0len,
        show i + M.nel * (k + 1) - M.nel = k * M.nel + i by rw [Nat.mul_succ, Nat.mul_comm]; omega]
      rw [getElem?_flatMap_range _ _ _ hw k i (by omega) hi]
      have hl : i < (M.offsetConnectivity (((k + 1) * M.nel : Nat) : Int) 0).elem.length := by rw [offset_length]; omega
      rw [List.getElem?_eq_getElem hl, ← HexaData.el_eq_getElem _ _ hl]
      unfold sliceElem
      rw [if_neg (by omega)]
  have hlen : (M0.elem ++ copies).length = M.nel * (z.length - 1) := by
    rw [List.length_append, hM0len, hclen]
    obtain ⟨q, hq⟩ : ∃ q, z.length = q + 2 := ⟨z.length - 2, by omega⟩
    rw [hq]
    simp only [Nat.add_one_sub_one, show q + 2 - 1 = q + 1 by omega]
    ring
  have hfr : M0.ndim = M.ndim ∧ M0.nbc = M.nbc ∧ M0.elmap = M.elmap ∧ M0.time = M.time ∧ M0.istep = M.istep ∧ M0.wdsz = M.wdsz ∧ M0.endian = M.endian := by
    rw [hM0]; cases ib <;> exact ⟨rfl, rfl, rfl, rfl, rfl, rfl, rfl⟩
  unfold extrude
  simp only
  rw [if_neg (by rw [A.ndim]; simp), if_neg (by rw [A.lr1]; simp), if_neg (by omega)]
  have hone' : oneSidedP (o1.getD (List.replicate M.nbc nP)) (o2.getD (List.replicate M.nbc nP)) = false := hone
  rw [hone', if_neg (by simp), if_neg (by
    rintro ⟨_, h⟩
    have e1 : (endList M.nbc o1).length = (o1.getD (List.replicate M.nbc nP)).length := rfl
    have e2 : (endList M.nbc o2).length = (o2.getD (List.replicate M.nbc nP)).length := rfl
    omega), if_neg (by have := A.z; omega)]
  refine ⟨_, rfl, ⟨rfl, rfl, hfr.2.1, rfl, rfl, rfl, hfr.2.2.1, hfr.2.2.2.1, hfr.2.2.2.2.1, hfr.2.2.2.2.2.1, hfr.2.2.2.2.2.2⟩, ?_, ?_⟩
  · rw [← hlen]
    cases ib <;> simp [M0, copies]
  · intro k hk i hi
    have hmod : (i + M.nel * k) % M.nel = i := by rw [Nat.add_mul_mod_self_left, Nat.mod_eq_of_lt hi]
    have hdiv : (i + M.nel * k) / M.nel = k := by
      rw [Nat.add_mul_div_left _ _ (by omega), Nat.div_eq_of_lt hi, Nat.zero_add]
    unfold HexaData.el
    rw [List.getD_eq_getElem?_getD]
    have h := hall k hk i hi
    have h' : (M0.elem ++ (List.range (z.length - 1 - 1)).flatMap fun k =>
      (M.offsetConnectivity (((k + 1) * M.nel : Nat) : Int) 0).elem)[i + M.nel * k]? = some (sliceElem M ib k i) := h
    cases ib
    · simp only [Bool.false_eq_true, if_false, List.getElem?_mapIdx]
      simp only [M0, Bool.false_eq_true, if_false] at h'
      rw [h']
      simp only [Option.map_some, Option.getD_some, hmod, hdiv]
      rfl
    · simp only [if_true, List.getElem?_mapIdx]
      simp only [M0, if_true] at h'
      rw [h']
      simp only [Option.map_some, Option.getD_some, hmod, hdiv]
      rfl

/-! ## C46 -/

/-- All data of the slices except conditions come from the 2D element. -/
theorem sliceElem_frame (M : HexaData F) (hn : M.nel = M.elem.length) (ib : Bool) (k i : Nat) (hi : i < M.nel) :
    sliceElem M ib k i = { M.el i with bcs := (sliceElem M ib k i).bcs } := by
  unfold sliceElem
  split_ifs with h h'
  · rfl
  · exact (delete_frame M).el i (by omega)
  · rw [offset_el _ _ _ _ (by omega)]

/-- **C46.** The extruded mesh has `nel * (len(z) - 1)` elements. Element `i + nel*k` has the `(x, y)` of element `i`
on both z faces, which lie at `z[k]` and `z[k+1]`; its edges 4–7 have the curvature of the edges 0–3, which is that of
element `i`, with the z coordinate of midpoints set to `z[k]` and `z[k+1]`. -/
theorem extrude_geometry (M : HexaData F) (z : List F) (o1 o2 : Option (List Name)) (A : ExtrudeArgs M z o1 o2) (ib : Bool) :
    ∃ R, extrude M z o1 o2 ib = .ok R ∧ R.ndim = 3 ∧ R.nel = M.nel * (z.length - 1) ∧ R.elem.length = R.nel ∧ R.nbc = M.nbc ∧
      R.lr1 = ⟨2, 2, 2, true⟩ ∧ R.var.pos = 3 ∧
      ∀ k, k + 1 < z.length → ∀ i < M.nel,
        let e := R.el (i + M.nel * k)
        (e.pos.n = 3 ∧ e.pos.lz = 2 ∧ e.pos.ly = 2 ∧ e.pos.lx = 2) ∧
        (∀ kz < 2, ∀ ky < 2, ∀ kx < 2, e.pos.dat 0 kz ky kx = (M.el i).pos.dat 0 0 ky kx ∧
          e.pos.dat 1 kz ky kx = (M.el i).pos.dat 1 0 ky kx ∧ some (e.pos.dat 2 kz ky kx) = z[k + kz]?) ∧
        (∀ g < 4, e.ccurv g = (M.el i).ccurv g ∧ e.ccurv (g + 4) = (M.el i).ccurv g ∧
          (∀ c < 5, ((M.el i).ccurv g = ['m'] → c ≠ 2) → e.curv g c = (M.el i).curv g c ∧ e.curv (g + 4) c = (M.el i).curv g c) ∧
          ((M.el i).ccurv g = ['m'] → some (e.curv g 2) = z[k]? ∧ some (e.curv (g + 4) 2) = z[k + 1]?)) ∧
        (∀ g, 8 ≤ g → e.ccurv g = (M.el i).ccurv g ∧ e.curv g = (M.el i).curv g) := by
  obtain ⟨R, h1, ⟨a1, a2, a3, a4, a5, -⟩, h3, h4⟩ := extrude_ok A ib
  refine ⟨R, h1, a1, a2, by rw [h3, a2], a3, a4, by rw [a5], fun k hk i hi => ?_⟩
  have hz : ∀ q, q < z.length → some (z.getD q 0) = z[q]? := by
    intro q hq; rw [List.getD_eq_getElem?_getD, List.getElem?_eq_getElem hq]; rfl
  have he := h4 k (by omega) i hi
  rw [sliceElem_frame M A.wf.nel ib k i hi] at he
  intro e
  have he' : ∃ g, e = { extrudeGeom (M.el i) (M.el i) (z.getD k 0) (z.getD (k + 1) 0) with bcs := g } := by
    cases ib <;> exact ⟨_, he⟩
  obtain ⟨g, hg⟩ := he'
  refine ⟨by rw [hg]; exact ⟨rfl, rfl, rfl, rfl⟩, ?_, ?_, ?_⟩
  · intro kz hkz ky hky kx hkx
    rw [hg]
    refine ⟨by simp [extrudeGeom], by simp [extrudeGeom], ?_⟩
    rcases (by omega : kz = 0 ∨ kz = 1) with rfl | rfl
    · simp only [extrudeGeom, if_true]; exact hz k (by omega)
    · simp only [extrudeGeom, if_true, one_ne_zero, if_false]; exact hz (k + 1) (by omega)
  · intro q hq
    rw [hg]
    refine ⟨by simp [extrudeGeom, show ¬ (4 ≤ q) by omega], by simp [extrudeGeom, show q < 4 by omega], ?_, ?_⟩
    · intro c hc hm
      have hn : ¬ ((M.el i).ccurv q = ['m'] ∧ c = 2) := fun h => hm h.1 h.2
      simp only [extrudeGeom, if_pos hq, if_neg hn, show ¬ (q + 4 < 4) by omega, if_false, show q + 4 < 8 by omega, if_true,
        Nat.add_sub_cancel, and_self]
    · intro hm
      simp only [extrudeGeom, if_pos hq, hm, and_self, show ¬ (q + 4 < 4) by omega, if_false, show q + 4 < 8 by omega, if_true,
        Nat.add_sub_cancel]
      exact ⟨hz k (by omega), hz (k + 1) hk⟩
  · intro q hq
    rw [hg]
    refine ⟨by simp [extrudeGeom, show ¬ (q < 8) by omega], ?_⟩
    funext c
    simp [extrudeGeom, show ¬ (q < 8) by omega, show ¬ (q < 4) by omega]

/-! ## C47 -/

namespace Spec

/-- Relation of internally linked faces in a stack of copies of a 2D mesh with `n` elements: side faces in the same slice
related by `C`, or top and bottom of consecutive elements of a column. -/
def Stacked (n : Nat) (C : Face → Face → Prop) (x y : Face) : Prop :=
  (∃ k x0 y0, x0.1 < n ∧ y0.1 < n ∧ x = (x0.1 + n * k, x0.2) ∧ y = (y0.1 + n * k, y0.2) ∧ x0.2 < 4 ∧ y0.2 < 4 ∧ C x0 y0) ∨
  (x.2 = 5 ∧ y.2 = 4 ∧ y.1 = x.1 + n) ∨ (x.2 = 4 ∧ y.2 = 5 ∧ x.1 = y.1 + n)

end Spec

/-- The conditions of the extruded mesh (`internal_bcs=True`). -/
theorem extrude_records {M : HexaData F} {z : List F} {o1 o2 : Option (List Name)} (A : ExtrudeArgs M z o1 o2) :
    ∃ R, extrude M z o1 o2 true = .ok R ∧ ∀ k, k + 1 < z.length → ∀ i < M.nel, ∀ b < M.nbc,
      let n := M.nel
      (∀ f < 4, (R.bc (i + n * k) b f).typ = (M.bc i b f).typ ∧
        ∀ y, IsLink (M.bc i b f) → PointsTo (M.bc i b f) y → PointsTo (R.bc (i + n * k) b f) (y.1 + n * k, y.2)) ∧
      (k = 0 → (R.bc (i + n * k) b 4).typ = u3 (sideBC o1 b) ∧
        (sideBC o1 b = nP → PointsTo (R.bc (i + n * k) b 4) (i + n * (z.length - 2), 5))) ∧
      (0 < k → (R.bc (i + n * k) b 4).typ = nE ∧ PointsTo (R.bc (i + n * k) b 4) (i + n * (k - 1), 5)) ∧
      (k + 2 = z.length → (R.bc (i + n * k) b 5).typ = u3 (sideBC o2 b) ∧
        (sideBC o2 b = nP → PointsTo (R.bc (i + n * k) b 5) (i, 4))) ∧
      (k + 2 < z.length → (R.bc (i + n * k) b 5).typ = nE ∧ PointsTo (R.bc (i + n * k) b 5) (i + n * (k + 1), 4)) := by
  obtain ⟨R, h1, -, h3, h4⟩ := extrude_ok A true
  refine ⟨R, h1, fun k hk i hi b hb => ?_⟩
  intro n
  have hn := A.wf.nel
  have hz := A.z
  have he := h4 k (by omega) i hi
  have hs1 := endList_getD M.nbc o1 b hb
  have hs2 := endList_getD M.nbc o2 b hb
  have hkn : n * k + n = n * (k + 1) := (Nat.mul_succ _ _).symm
  have htop : n * (z.length - 1) = n * (z.length - 2) + n := by
    rw [← Nat.mul_succ]; congr 1; omega
  have hle : n * (k + 1) ≤ n * (z.length - 1) := Nat.mul_le_mul_left _ (by omega)
  refine ⟨?_, ?_, ?_, ?_, ?_⟩
  · intro f hf
    have hb0 : (sliceElem M true k i).bcs b f = (M.offsetConnectivity ((k * M.nel : Nat) : Int) 0).bc i b f := by
      unfold sliceElem
      by_cases h : k = 0
      · subst h
        simp only [if_true]
        unfold HexaData.bc
        rw [offset_el _ _ _ _ (by omega)]
        simp only [Nat.zero_mul, Nat.cast_zero, shifted_zero, ite_self]
        rfl
      · rw [if_neg h]; rfl
    have hR : R.bc (i + n * k) b f = { (M.offsetConnectivity ((k * M.nel : Nat) : Int) 0).bc i b f with
        own := (((i + n * k : Nat) : Int) + 1) } := by
      unfold HexaData.bc
      rw [he]
      unfold HexaData.bc at hb0
      simp only [extrudeEnds, if_pos hb, show f ≠ 4 by omega, show f ≠ 5 by omega, false_and, if_false, if_true, extrudeInner, hf]
      have hg : (extrudeGeom (M.el i) (sliceElem M true k i) (z.getD k 0) (z.getD (k + 1) 0)).bcs = (sliceElem M true k i).bcs := rfl
      rw [hg, hb0]
      split_ifs
      · simp only [sub_add_cancel_left, neg_add_cancel, show ((((i + M.nel * k : Nat) : Int) - (((i + M.nel * k : Nat) : Int) + 1) + 1 : Int)) = 0 by ring, Int.cast_zero, add_zero]
        rfl
      · rfl
    have hoff : (M.offsetConnectivity ((k * M.nel : Nat) : Int) 0).bc i b f = shifted ((k * M.nel : Nat) : Int) 0 (0 ≤ i) (M.bc i b f) := by
      unfold HexaData.bc
      rw [offset_el _ _ _ _ (by omega)]
      have : f < 2 * M.ndim := by rw [A.ndim]; omega
      simp only [hb, this, and_self, if_true]; rfl
    refine ⟨by rw [hR, hoff]; rfl, fun y hl hp => ?_⟩
    have := (offset_connectivity_link M ((k * M.nel : Nat) : Int) 0 i b f (by omega) hb (by rw [A.ndim]; omega) y hl hp).1
      (Nat.zero_le _) (y.1 + n * k) (by push_cast; ring)
    rw [hR]
    exact this
  · rintro rfl
    have hR : R.bc (i + n * 0) b 4 = _ := congrArg (fun e => e.bcs b 4) he
    have : i + M.nel * 0 < M.nel := by omega
    simp only [extrudeEnds, if_pos hb, true_and, if_pos this, hs1] at hR
    rw [hR]
    refine ⟨rfl, fun hP => ?_⟩
    have e : i + M.nel * 0 + (z.length - 1 - 1) * M.nel = i + n * (z.length - 2) := by
      rw [show z.length - 1 - 1 = z.length - 2 by omega, Nat.mul_comm]; ring
    simp only [PointsTo, if_pos hP, e]
    constructor
    · rw [trunc_intCast]
    · have := trunc_natCast (F := F) 6; push_cast at this; rw [this]; rfl
  · intro hk0
    have hR : R.bc (i + n * k) b 4 = _ := congrArg (fun e => e.bcs b 4) he
    have h' : ¬ (i + M.nel * k < M.nel) := by
      have : M.nel * 1 ≤ M.nel * k := Nat.mul_le_mul_left _ hk0
      omega
    simp only [extrudeEnds, if_pos hb, true_and, if_neg h', if_true, extrudeInner, show (4 : Nat) ≠ 5 by omega, false_and, if_false] at hR
    rw [hR]
    refine ⟨rfl, ?_⟩
    simp only [PointsTo]
    constructor
    · rw [trunc_intCast]
      obtain ⟨q, rfl⟩ : ∃ q, k = q + 1 := ⟨k - 1, by omega⟩
      simp only [Nat.add_one_sub_one]
      push_cast
      ring
    · have := trunc_natCast (F := F) 6; push_cast at this; rw [this]; rfl
  · intro hk2
    have hR : R.bc (i + n * k) b 5 = _ := congrArg (fun e => e.bcs b 5) he
    have e2 : (z.length - 1 - 1) * M.nel = M.nel * k := by
      rw [show z.length - 1 - 1 = k by omega, Nat.mul_comm]
    have h' : (z.length - 1 - 1) * M.nel ≤ i + M.nel * k := by omega
    simp only [extrudeEnds, if_pos hb, true_and, if_pos h', show (5 : Nat) ≠ 4 by omega, false_and, if_false, hs2] at hR
    rw [hR]
    refine ⟨rfl, fun hP => ?_⟩
    simp only [PointsTo, if_pos hP]
    constructor
    · rw [trunc_intCast, e2, Nat.add_sub_cancel]
    · have := trunc_natCast (F := F) 5; push_cast at this; rw [this]; rfl
  · intro hk2
    have hR : R.bc (i + n * k) b 5 = _ := congrArg (fun e => e.bcs b 5) he
    have h' : ¬ ((z.length - 1 - 1) * M.nel ≤ i + M.nel * k) := by
      have : M.nel * (k + 1) ≤ M.nel * (z.length - 1 - 1) := Nat.mul_le_mul_left _ (by omega)
      rw [Nat.mul_succ] at this
      rw [Nat.mul_comm (z.length - 1 - 1)]
      have : n = M.nel := rfl
      omega
    simp only [extrudeEnds, if_pos hb, true_and, if_neg h', if_true, extrudeInner, show (5 : Nat) ≠ 4 by omega, false_and, if_false] at hR
    rw [hR]
    refine ⟨rfl, ?_⟩
    simp only [PointsTo]
    constructor
    · rw [trunc_intCast]; push_cast; ring
    · have := trunc_natCast (F := F) 5; push_cast at this; rw [this]; rfl

/-- **C47.** If the 2D mesh is validly connected and the end conditions are not `'E'` (periodic at both ends or none by the
check of `extrude`), the extruded mesh is validly connected, and its internal links are those of the slices and the vertical ones. -/
theorem extrude_valid (M : HexaData F) (z : List F) (o1 o2 : Option (List Name)) (A : ExtrudeArgs M z o1 o2)
    (hE : ∀ b < M.nbc, sideBC o1 b ≠ nE ∧ sideBC o2 b ≠ nE) (C : Face → Face → Prop) (hv : Valid M C) :
    ∃ R, extrude M z o1 o2 true = .ok R ∧ WF R ∧ Grid R ∧ Valid R (Stacked M.nel C) := by
  obtain ⟨R, h1, hrec⟩ := extrude_records A
  obtain ⟨R', h1', ⟨a1, a2, a3, -⟩, h3, h4⟩ := extrude_ok A true
  obtain rfl : R = R' := by rw [h1] at h1'; simpa using h1'
  have hn := A.wf.nel
  have hz := A.z
  have helt : ∀ e < R.elem.length, ∃ k, k + 1 < z.length ∧ ∃ i < M.nel, e = i + M.nel * k := by
    intro e he
    obtain ⟨i, hi, k, hk, rfl⟩ := elnum_cases (h3 ▸ he)
    exact ⟨k, by omega, i, hi, rfl⟩
  have hlt : ∀ k, k + 1 < z.length → ∀ i < M.nel, i + M.nel * k < R.elem.length := by
    intro k hk i hi; rw [h3]; exact elnum_lt hi (by omega)
  refine ⟨R, h1, ⟨by rw [a2, h3], ?_, Or.inr a1⟩, ?_, ?_⟩
  · intro el hel
    obtain ⟨e, he, rfl⟩ := List.getElem_of_mem hel
    rw [← R.el_eq_getElem e he]
    obtain ⟨k, hk, i, hi, rfl⟩ := helt e he
    rw [h4 k (by omega) i hi, sliceElem_frame M hn true k i hi, a3]
    have := A.wf.rows (M.el i) (M.el_mem i (by omega))
    exact this
  · intro el hel
    obtain ⟨e, he, rfl⟩ := List.getElem_of_mem hel
    rw [← R.el_eq_getElem e he]
    obtain ⟨k, hk, i, hi, rfl⟩ := helt e he
    rw [h4 k (by omega) i hi]
    exact ⟨le_refl _, le_refl _, (by decide : 1 ≤ 2)⟩
  · intro b hb
    rw [a3] at hb
    rw [a1]
    rintro ⟨e, f⟩ he hf hl
    dsimp only at he hf hl ⊢
    obtain ⟨k, hk, i, hi, rfl⟩ := helt e he
    obtain ⟨r0, r1, r2, r3, r4⟩ := hrec k hk i hi b hb
    have hf' : f < 4 ∨ f = 4 ∨ f = 5 := by omega
    rcases hf' with hf4 | rfl | rfl
    · have hl' : IsLink (M.bc i b f) := by
        unfold IsLink at hl ⊢; rw [(r0 f hf4).1] at hl; exact hl
      obtain ⟨y, y1, y2, y3, y4, y5, y6⟩ := hv b hb (i, f) (by dsimp only; omega) (by rw [A.ndim]; exact hf4) hl'
      dsimp only at y3 y4 y5 y6
      have hy2 : y.2 < 4 := by rw [A.ndim] at y2; exact y2
      have hy1 : y.1 < M.nel := by omega
      have rq := (hrec k hk y.1 hy1 b hb).1 y.2 hy2
      have hly : IsLink (M.bc y.1 b y.2) := by unfold IsLink at hl' ⊢; rw [y4]; exact hl'
      refine ⟨(y.1 + M.nel * k, y.2), hlt k hk y.1 hy1, by dsimp only; omega, (r0 f hf4).2 y hl' y3, ?_, rq.2 (i, f) hly y5, ?_⟩
      · dsimp only; rw [rq.1, (r0 f hf4).1, y4]
      · intro hE'
        rw [(r0 f hf4).1] at hE'
        exact Or.inl ⟨k, (i, f), y, hi, hy1, rfl, rfl, hf4, hy2, y6 hE'⟩
    · rcases Nat.eq_zero_or_pos k with rfl | hk0
      · obtain ⟨t1, t2⟩ := r1 rfl
        have hP : sideBC o1 b = nP := by
          rcases hl with h | h
          · rw [t1] at h; exact absurd ((u3_single _ 'E').1 h) (hE b hb).1
          · rw [t1] at h; exact (u3_single _ 'P').1 h
        have hP2 := (A.both b hb).1 hP
        obtain ⟨-, -, -, s3, -⟩ := hrec (z.length - 2) (by omega) i hi b hb
        obtain ⟨s31, s32⟩ := s3 (by omega)
        refine ⟨(i + M.nel * (z.length - 2), 5), hlt _ (by omega) i hi, by dsimp only; omega, t2 hP, ?_, ?_, ?_⟩
        · dsimp only; rw [s31, t1, hP, hP2]
        · exact s32 hP2
        · intro h; rw [t1, hP] at h; exact absurd h (by decide)
      · obtain ⟨t1, t2⟩ := r2 hk0
        obtain ⟨k, rfl⟩ : ∃ q, k = q + 1 := ⟨k - 1, by omega⟩
        obtain ⟨-, -, -, -, s4⟩ := hrec k (by omega) i hi b hb
        obtain ⟨s41, s42⟩ := s4 (by omega)
        refine ⟨(i + M.nel * k, 5), hlt _ (by omega) i hi, by dsimp only; omega, t2, ?_, s42, fun _ => ?_⟩
        · dsimp only; rw [s41, t1]
        · exact Or.inr (Or.inr ⟨rfl, rfl, by dsimp only; rw [Nat.mul_succ]; omega⟩)
    · by_cases hk2 : k + 2 = z.length
      · obtain ⟨t1, t2⟩ := r3 hk2
        have hP : sideBC o2 b = nP := by
          rcases hl with h | h
          · rw [t1] at h; exact absurd ((u3_single _ 'E').1 h) (hE b hb).2
          · rw [t1] at h; exact (u3_single _ 'P').1 h
        have hP1 := (A.both b hb).2 hP
        obtain ⟨-, s1, -⟩ := hrec 0 (by omega) i hi b hb
        obtain ⟨s11, s12⟩ := s1 rfl
        refine ⟨(i + M.nel * 0, 4), hlt _ (by omega) i hi, by dsimp only; omega, t2 hP, ?_, ?_, ?_⟩
        · dsimp only; rw [s11, t1, hP, hP1]
        · have := s12 hP1; rw [show z.length - 2 = k by omega] at this; exact this
        · intro h; rw [t1, hP] at h; exact absurd h (by decide)
      · obtain ⟨t1, t2⟩ := r4 (by omega)
        obtain ⟨-, -, s2, -⟩ := hrec (k + 1) (by omega) i hi b hb
        obtain ⟨s21, s22⟩ := s2 (by omega)
        refine ⟨(i + M.nel * (k + 1), 4), hlt _ (by omega) i hi, by dsimp only; omega, t2, ?_, s22, fun _ => ?_⟩
        · dsimp only; rw [s21, t1]
        · exact Or.inr (Or.inl ⟨rfl, rfl, by dsimp only; rw [Nat.mul_succ]; omega⟩)

/-! ## C48 -/

namespace Spec

/-- The faces have the same centre in the plane. -/
def SameCentreXY (M : HexaData F) (x y : Face) : Prop := ∀ d < 2, faceMean (M.el x.1) x.2 d = faceMean (M.el y.1) y.2 d

/-- Each element is a quadrilateral given by its four vertices. -/
def Vertex2D (M : HexaData F) : Prop := ∀ el ∈ M.elem, el.pos.lz = 1 ∧ el.pos.ly = 2 ∧ el.pos.lx = 2

end Spec

/-- **C48.** If linked faces of the 2D mesh have equal centres, the extruded mesh passes `check_connectivity` for every
tolerance. -/
theorem extrude_checks (M : HexaData F) (z : List F) (o1 o2 : Option (List Name)) (A : ExtrudeArgs M z o1 o2) (h2 : Vertex2D M)
    (hE : ∀ b < M.nbc, sideBC o1 b ≠ nE ∧ sideBC o2 b ≠ nE) (hv : Valid M (SameCentreXY M)) :
    ∃ R, extrude M z o1 o2 true = .ok R ∧ ∀ tol, 0 ≤ tol → R.checkConnectivity tol = .ok true := by
  obtain ⟨R, h1, hw, hg, hval⟩ := extrude_valid M z o1 o2 A hE _ hv
  obtain ⟨R', h1', -, hnel, hlen, -, -, -, hgeo⟩ := extrude_geometry M z o1 o2 A true
  obtain rfl : R = R' := by rw [h1] at h1'; simpa using h1'
  have hn := A.wf.nel
  have cor : ∀ k, k + 1 < z.length → ∀ i < M.nel, ∀ sx sy sz : Bool,
      (∀ sz' : Bool, ∀ d < 2, Spec.corner (R.el (i + M.nel * k)) sx sy sz d = Spec.corner (M.el i) sx sy sz' d) ∧
      some (Spec.corner (R.el (i + M.nel * k)) sx sy sz 2) = z[k + if sz then 1 else 0]? := by
    intro k hk i hi sx sy sz
    obtain ⟨⟨-, l1, l2, l3⟩, hp, -⟩ := hgeo k hk i hi
    obtain ⟨m1, m2, m3⟩ := h2 _ (M.el_mem i (by omega))
    have hp' := hp (if sz then 1 else 0) (by split_ifs <;> omega) (if sy then 1 else 0) (by split_ifs <;> omega)
      (if sx then 1 else 0) (by split_ifs <;> omega)
    unfold Spec.corner
    rw [l1, l2, l3, m1, m2, m3]
    simp only [Nat.add_one_sub_one, Nat.sub_self, ite_self]
    refine ⟨fun _ d hd => ?_, hp'.2.2⟩
    rcases (by omega : d = 0 ∨ d = 1) with rfl | rfl
    · exact hp'.1
    · exact hp'.2.1
  have zval : ∀ k, k + 1 < z.length → ∀ i < M.nel, ∀ sx sy sz : Bool,
      Spec.corner (R.el (i + M.nel * k)) sx sy sz 2 = z.getD (k + if sz then 1 else 0) 0 := by
    intro k hk i hi sx sy sz
    have := (cor k hk i hi sx sy sz).2
    rw [List.getD_eq_getElem?_getD, ← this]; rfl
  refine ⟨R, h1, fun tol ht => check_of_sameCentre R hw hg ?_ tol ht⟩
  intro b hb x hx hx2 hl
  obtain ⟨y, y1, y2, y3, y4, y5, y6⟩ := hval b hb x hx hx2 hl
  refine ⟨y, y1, y2, y3, y4, y5, fun h => ?_⟩
  have vert : ∀ e, e + M.nel < R.elem.length → SameCentre R (e, 5) (e + M.nel, 4) := by
    intro e he d hd
    rw [hlen, hnel] at he
    obtain ⟨i, hi, k, hk, rfl⟩ := elnum_cases (by omega : e < M.nel * (z.length - 1))
    have hk2 : k + 1 < z.length - 1 := by
      by_contra hk2
      obtain rfl : k = z.length - 2 := by omega
      have : M.nel * (z.length - 1) = M.nel * (z.length - 2) + M.nel := by
        rw [← Nat.mul_succ]; congr 1; omega
      omega
    have e2 : i + M.nel * k + M.nel = i + M.nel * (k + 1) := by ring
    dsimp only
    rw [e2]
    unfold faceMean faceCoord
    rcases (by omega : d < 2 ∨ d = 2) with hd2 | rfl
    · have c1 : ∀ sx sy sz : Bool, Spec.corner (R.el (i + M.nel * k)) sx sy sz d = Spec.corner (M.el i) sx sy false d :=
        fun _ _ _ => (cor k (by omega) i hi _ _ _).1 false d hd2
      have c2 : ∀ sx sy sz : Bool, Spec.corner (R.el (i + M.nel * (k + 1))) sx sy sz d = Spec.corner (M.el i) sx sy false d :=
        fun _ _ _ => (cor (k + 1) (by omega) i hi _ _ _).1 false d hd2
      simp only [c1, c2]
    · simp only [zval k (by omega) i hi, zval (k + 1) (by omega) i hi, if_true, Bool.false_eq_true, if_false, Nat.add_zero]
  have side : ∀ k, k + 1 < z.length → ∀ i < M.nel, ∀ f < 4,
      (∀ d < 2, faceMean (R.el (i + M.nel * k)) f d = faceMean (M.el i) f d) ∧
      faceMean (R.el (i + M.nel * k)) f 2 = (z.getD k 0 + z.getD (k + 1) 0) / 2 := by
    intro k hk i hi f hf
    have hf' : f = 0 ∨ f = 1 ∨ f = 2 ∨ f = 3 := by omega
    constructor
    · intro d hd
      rcases hf' with rfl | rfl | rfl | rfl <;> unfold faceMean faceCoord <;>
        (congr 1; congr 1; congr 1; congr 1; all_goals exact (cor k hk i hi _ _ _).1 _ d hd)
    · rcases hf' with rfl | rfl | rfl | rfl <;> unfold faceMean faceCoord <;>
        (simp only [zval k hk i hi, if_true, Bool.false_eq_true, if_false, Nat.add_zero]; ring)
  rcases y6 h with ⟨k, x0, y0, l1, l2, rfl, rfl, f1, f2, hc⟩ | ⟨q1, q2, q3⟩ | ⟨q1, q2, q3⟩
  · have hk : k + 1 < z.length := by
      dsimp only at hx
      rw [hlen, hnel] at hx
      have : k < z.length - 1 := by
        by_contra hk
        have : M.nel * (z.length - 1) ≤ M.nel * k := Nat.mul_le_mul_left _ (by omega)
        omega
      omega
    intro d hd
    dsimp only
    rcases (by omega : d < 2 ∨ d = 2) with hd2 | rfl
    · rw [(side k hk _ l1 _ f1).1 d hd2, (side k hk _ l2 _ f2).1 d hd2]; exact hc d hd2
    · rw [(side k hk _ l1 _ f1).2, (side k hk _ l2 _ f2).2]
  · obtain ⟨x1, x2⟩ := x
    obtain ⟨z1, z2⟩ := y
    dsimp only at q1 q2 q3 y1
    subst q1 q2 q3
    exact vert _ y1
  · obtain ⟨x1, x2⟩ := x
    obtain ⟨z1, z2⟩ := y
    dsimp only at q1 q2 q3 hx
    subst q1 q2 q3
    exact fun d hd => (vert _ hx d hd).symm

/-! ## C49 -/

theorem extrudeFew_err {M M0 : HexaData F} {z : List F} {l1 l2 : List Name} {ib : Bool} {e : PyErr} :
    extrudeFew M M0 z l1 l2 ib = .error e ↔ e = .indexError ∧ z = [] ∧ M.nel ≠ 0 ∧ M.nbc ≠ 0 := by
  unfold extrudeFew
  by_cases h : z = [] ∧ M.nel ≠ 0 ∧ M.nbc ≠ 0
  · rw [if_pos h]
    exact ⟨fun g => ⟨(Except.error.inj g).symm, h⟩, fun g => by rw [g.1]⟩
  · rw [if_neg h]
    exact ⟨fun g => (by cases g), fun g => absurd g.2 h⟩

/-- **C49.** `extrude` raises `ValueError` exactly on a mesh that is not 2D, whose `lr1` is not the list `[2, 2, 1]`, that has no
`(x, y)` geometry, or if exactly one end is periodic in some field. -/
theorem extrude_rejects (M : HexaData F) (z : List F) (o1 o2 : Option (List Name)) (ib : Bool) :
    extrude M z o1 o2 ib = .error .valueError ↔
      (M.ndim ≠ 2 ∨ M.lr1 ≠ ⟨2, 2, 1, true⟩ ∨ M.var.pos < 2 ∨ OneSided (endList M.nbc o1) (endList M.nbc o2)) := by
  rw [← oneSidedP_iff]
  unfold extrude endList
  simp only
  split_ifs with h1 h2 h3 h4 h5 h6
  · simp [h1]
  · simp [h2]
  · simp [h3]
  · simp [h4]
  · simp only [Except.error.injEq, reduceCtorEq, false_iff, not_or]
    exact ⟨h1, h2, h3, h4⟩
  all_goals
    simp only [extrudeFew_err, reduceCtorEq, false_and, false_iff, not_or]
    exact ⟨h1, h2, h3, h4⟩

/-- **C49.** The only other exception is an `IndexError`: for a list of end conditions that is shorter than the number of fields, or
for an empty list of z values. It is raised exactly then, unless a `ValueError` is. -/
theorem extrude_rejects_short (M : HexaData F) (z : List F) (o1 o2 : Option (List Name)) (ib : Bool) (e : PyErr) (hv : e ≠ .valueError) :
    extrude M z o1 o2 ib = .error e ↔
      e = .indexError ∧ ¬ (M.ndim ≠ 2 ∨ M.lr1 ≠ ⟨2, 2, 1, true⟩ ∨ M.var.pos < 2 ∨ OneSided (endList M.nbc o1) (endList M.nbc o2)) ∧
        M.nel ≠ 0 ∧ M.nbc ≠ 0 ∧ ((endList M.nbc o1).length < M.nbc ∨ (endList M.nbc o2).length < M.nbc ∨ z = []) := by
  rw [← oneSidedP_iff]
  unfold extrude endList
  simp only
  have hv' : PyErr.valueError ≠ e := fun h => hv h.symm
  by_cases h1 : M.ndim ≠ 2
  · simp [h1, hv']
  by_cases h2 : M.lr1 ≠ ⟨2, 2, 1, true⟩
  · simp [h2, hv', not_not.mp h1]
  by_cases h3 : M.var.pos < 2
  · simp [h3, hv', not_not.mp h1, not_not.mp h2]
  by_cases h4 : oneSidedP (o1.getD (List.replicate M.nbc nP)) (o2.getD (List.replicate M.nbc nP)) = true
  · rw [if_neg h1, if_neg h2, if_neg h3, if_pos h4]
    simp [h4, hv']
  rw [if_neg h1, if_neg h2, if_neg h3, if_neg h4]
  have hh : ¬ (M.ndim ≠ 2 ∨ M.lr1 ≠ ⟨2, 2, 1, true⟩ ∨ M.var.pos < 2 ∨
      oneSidedP (o1.getD (List.replicate M.nbc nP)) (o2.getD (List.replicate M.nbc nP)) = true) := by tauto
  by_cases h5 : M.nel ≠ 0 ∧ ((o1.getD (List.replicate M.nbc nP)).length < M.nbc ∨ (o2.getD (List.replicate M.nbc nP)).length < M.nbc)
  · rw [if_pos h5]
    exact ⟨fun g => ⟨(Except.error.inj g).symm, hh, h5.1, by rcases h5.2 with h | h <;> omega, by tauto⟩, fun g => by rw [g.1]⟩
  rw [if_neg h5]
  by_cases h6 : z.length < 2
  · rw [if_pos h6, extrudeFew_err]
    exact ⟨fun g => ⟨g.1, hh, g.2.2.1, g.2.2.2, Or.inr (Or.inr g.2.1)⟩, fun g => ⟨g.1, by tauto, g.2.2.1, g.2.2.2.1⟩⟩
  · rw [if_neg h6]
    exact ⟨fun g => (by cases g), fun g => absurd g.2.2.2.2 (by
      rintro (h | h | rfl)
      · exact h5 ⟨g.2.2.1, Or.inl h⟩
      · exact h5 ⟨g.2.2.1, Or.inr h⟩
      · simp at h6)⟩

example : extrude Samples.channel ([] : List ℚ) none none true = .error .indexError :=
  (extrude_rejects_short _ _ _ _ _ _ (by decide)).2 ⟨rfl, by rw [← oneSidedP_iff]; decide +kernel, by decide +kernel, by decide +kernel, Or.inr (Or.inr rfl)⟩

/-- With a single z value there is no layer, and the result says that it has no element; yet the elements of the 2D mesh are still in its
list, with their positions in the plane. -/
theorem extrude_single (M : HexaData F) (z : F) (o1 o2 : Option (List Name)) (ib : Bool) (R : HexaData F)
    (h : extrude M [z] o1 o2 ib = .ok R) :
    R.nel = 0 ∧ R.ndim = 3 ∧ R.elem.length = M.elem.length ∧ ∀ i, (R.el i).pos = (M.el i).pos := by
  have key : ∀ (l : List (Elem F)) (g : Nat → Elem F → Elem F), (∀ i el, (g i el).pos = el.pos) → ∀ i,
      ((l.mapIdx g).getD i Elem.blank).pos = (l.getD i Elem.blank).pos := by
    intro l g hg i
    rw [List.getD_eq_getElem?_getD, List.getD_eq_getElem?_getD, List.getElem?_mapIdx]
    cases l[i]? with
    | none => rfl
    | some el => exact hg i el
  have dlen : (deleteInternalBcs M).1.elem.length = M.elem.length := (delete_frame M).len
  have dpos : ∀ i, ((deleteInternalBcs M).1.elem.getD i Elem.blank).pos = (M.elem.getD i Elem.blank).pos := by
    intro i
    show ((M.elem.map _).getD i Elem.blank).pos = _
    rw [List.getD_eq_getElem?_getD, List.getD_eq_getElem?_getD, List.getElem?_map]
    cases M.elem[i]? <;> rfl
  unfold extrude at h
  dsimp only at h
  rw [if_pos (show [z].length < 2 by simp)] at h
  unfold extrudeFew at h
  rw [if_neg (show ¬ ([z] = [] ∧ M.nel ≠ 0 ∧ M.nbc ≠ 0) by simp)] at h
  split_ifs at h
  all_goals
    obtain rfl := Except.ok.inj h
    refine ⟨rfl, rfl, by simp [dlen], fun i => ?_⟩
    unfold HexaData.el
    dsimp only
    rw [key _ _ (fun _ _ => by rfl)]
    first
    | exact dpos i
    | exact key _ _ (fun _ _ => by rfl) i

/-- The records that a single z value leaves on the faces 5 and 6 of the 2D elements: face 5 carries the number of its element, but face 6
carries a number that is too small by the number of elements (0 for the last element, negative for the others), and so does the partner
of a periodic face 5. -/
theorem extrude_single_ends (M : HexaData F) (z : F) (o1 o2 : Option (List Name)) (ib : Bool) (R : HexaData F)
    (h : extrude M [z] o1 o2 ib = .ok R) (i b : Nat) (hi : i < M.nel) (hl : i < M.elem.length) (hb : b < M.nbc) :
    (R.bc i b 4).own = (i : Int) + 1 ∧ (R.bc i b 4).ownFace = 5 ∧
    (R.bc i b 5).own = (i : Int) + 1 - M.nel ∧ (R.bc i b 5).ownFace = 6 ∧
    ((R.bc i b 4).typ = nP → (R.bc i b 4).p3 = (((i : Int) + 1 - M.nel : Int) : F) ∧ (R.bc i b 4).p4 = 6) ∧
    ((R.bc i b 5).typ = nP → (R.bc i b 5).p3 = (((i : Int) + 1 : Int) : F) ∧ (R.bc i b 5).p4 = 5) ∧
    ((R.bc i b 4).typ ≠ nP → (R.bc i b 4).p3 = 0 ∧ (R.bc i b 4).p4 = 0) ∧
    ((R.bc i b 5).typ ≠ nP → (R.bc i b 5).p3 = 0 ∧ (R.bc i b 5).p4 = 0) := by
  have hu : ∀ c : Name, u3 c = nP ↔ c = nP := by
    intro c
    match c with
    | [] => exact Iff.rfl
    | [x] => exact Iff.rfl
    | [x, y] => exact Iff.rfl
    | x :: y :: w :: t =>
      constructor
      · intro h
        have h2 : [x, y, w] = ['P'] := h
        cases h2
      · intro h
        have h2 : x :: y :: w :: t = ['P'] := h
        cases h2
  have dlen : (deleteInternalBcs M).1.elem.length = M.elem.length := (delete_frame M).len
  have few : ∀ (l : List (Elem F)) (g1 g2 : Nat → Name), l.length = M.elem.length →
      (l.mapIdx fun iel el => extrudeEndsFew M.nel M.nbc g1 g2 iel el).getD i Elem.blank =
        extrudeEndsFew M.nel M.nbc g1 g2 i (l.getD i Elem.blank) := by
    intro l g1 g2 hl2
    rw [List.getD_eq_getElem?_getD, List.getD_eq_getElem?_getD, List.getElem?_mapIdx, List.getElem?_eq_getElem (by omega)]
    rfl
  have fin : ∀ (c1 c2 : Name) (el : Elem F) (r4 r5 : BC F),
      r4 = { el.bcs b 4 with typ := u3 c1, own := (i : Int) + 1, ownFace := 5,
                             p3 := if c1 = nP then ((i : Int) - M.nel + 1 : Int) else 0
                             p4 := if c1 = nP then 6 else 0 } →
      r5 = { el.bcs b 5 with typ := u3 c2, own := (i : Int) - M.nel + 1, ownFace := 6,
                             p3 := if c2 = nP then ((i : Int) + 1 : Int) else 0
                             p4 := if c2 = nP then 5 else 0 } →
      r4.own = (i : Int) + 1 ∧ r4.ownFace = 5 ∧ r5.own = (i : Int) + 1 - M.nel ∧ r5.ownFace = 6 ∧
      (r4.typ = nP → r4.p3 = (((i : Int) + 1 - M.nel : Int) : F) ∧ r4.p4 = 6) ∧
      (r5.typ = nP → r5.p3 = (((i : Int) + 1 : Int) : F) ∧ r5.p4 = 5) ∧
      (r4.typ ≠ nP → r4.p3 = 0 ∧ r4.p4 = 0) ∧ (r5.typ ≠ nP → r5.p3 = 0 ∧ r5.p4 = 0) := by
    intro c1 c2 el r4 r5 h4 h5
    have e : (i : Int) - M.nel + 1 = (i : Int) + 1 - M.nel := by ring
    subst h4 h5
    refine ⟨rfl, rfl, e, rfl, fun h => ?_, fun h => ?_, fun h => ?_, fun h => ?_⟩
    · have h := (hu _).1 h
      dsimp only
      rw [if_pos h, if_pos h, e]; exact ⟨rfl, rfl⟩
    · have h := (hu _).1 h
      dsimp only
      rw [if_pos h, if_pos h]; exact ⟨rfl, rfl⟩
    · have h := fun e => h ((hu _).2 e)
      dsimp only
      rw [if_neg h, if_neg h]; exact ⟨rfl, rfl⟩
    · have h := fun e => h ((hu _).2 e)
      dsimp only
      rw [if_neg h, if_neg h]; exact ⟨rfl, rfl⟩
  unfold extrude at h
  dsimp only at h
  rw [if_pos (show [z].length < 2 by simp)] at h
  unfold extrudeFew at h
  rw [if_neg (show ¬ ([z] = [] ∧ M.nel ≠ 0 ∧ M.nbc ≠ 0) by simp)] at h
  split_ifs at h
  all_goals
    obtain rfl := Except.ok.inj h
    unfold HexaData.bc HexaData.el
    dsimp only
    rw [few _ _ _ (by simp [dlen])]
    generalize List.getD (α := Elem F) _ i Elem.blank = el
    refine fin _ _ el _ _ (by unfold extrudeEndsFew; dsimp only; rw [if_pos ⟨hb, hi⟩, if_pos rfl])
      (by unfold extrudeEndsFew; dsimp only; rw [if_pos ⟨hb, hi⟩, if_neg (show ¬ (5 : Nat) = 4 by omega), if_pos rfl])

example : ∃ R, extrude Samples.channel [(5 : ℚ)] none none true = .ok R ∧ (R.bc 1 0 5).own = -2 ∧ (R.bc 1 0 4).own = 2 := by
  obtain ⟨R, hR⟩ : ∃ R, extrude Samples.channel [(5 : ℚ)] none none true = .ok R := by
    cases h : extrude Samples.channel [(5 : ℚ)] none none true with
    | ok R => exact ⟨R, rfl⟩
    | error e =>
      by_cases hv : e = .valueError
      · rw [hv] at h
        exact absurd ((extrude_rejects _ _ _ _ _).1 h) (by rw [← oneSidedP_iff]; decide +kernel)
      · obtain ⟨-, -, -, -, h | h | h⟩ := (extrude_rejects_short _ _ _ _ _ _ hv).1 h
        · exact absurd h (by decide +kernel)
        · exact absurd h (by decide +kernel)
        · cases h
  have h := extrude_single_ends _ _ _ _ _ _ hR 1 0 (by decide +kernel) (by decide +kernel) (by decide +kernel)
  exact ⟨R, hR, h.2.2.1.trans (by decide +kernel), h.1⟩

example : ∃ R, extrude Samples.channel [(5 : ℚ)] none none true = .ok R ∧ R.nel = 0 ∧ R.elem.length = 4 := by
  cases h : extrude Samples.channel [(5 : ℚ)] none none true with
  | error e =>
    by_cases hv : e = .valueError
    · rw [hv] at h
      exact absurd ((extrude_rejects _ _ _ _ _).1 h) (by rw [← oneSidedP_iff]; decide +kernel)
    · obtain ⟨-, -, -, -, h | h | h⟩ := (extrude_rejects_short _ _ _ _ _ _ hv).1 h
      · exact absurd h (by decide +kernel)
      · exact absurd h (by decide +kernel)
      · cases h
  | ok R =>
    obtain ⟨h1, -, h3, -⟩ := extrude_single _ _ _ _ _ _ h
    exact ⟨R, rfl, h1, h3.trans (by decide +kernel)⟩

/-! ## C50 -/

/-- **C50 is false**, in general: with `internal_bcs=False` and at least two layers each internal side face of the 2D mesh is still
marked `'E'` in all layers but the first. -/
theorem extrude_keeps_internal (M : HexaData F) (z : List F) (o1 o2 : Option (List Name)) (A : ExtrudeArgs M z o1 o2)
    (i b f : Nat) (hi : i < M.nel) (hb : b < M.nbc) (hf : f < 4) (hE : (M.bc i b f).typ = nE) :
    ∃ R, extrude M z o1 o2 false = .ok R ∧ ∀ k, 0 < k → k + 1 < z.length → (R.bc (i + M.nel * k) b f).typ = nE := by
  obtain ⟨R, h1, -, h3, h4⟩ := extrude_ok A false
  refine ⟨R, h1, fun k hk0 hk => ?_⟩
  have hn := A.wf.nel
  have hR : R.bc (i + M.nel * k) b f = _ := congrArg (fun e => e.bcs b f) (h4 k (by omega) i hi)
  simp only [extrudeEnds, if_pos hb, show f ≠ 4 by omega, show f ≠ 5 by omega, false_and, if_false, Bool.false_eq_true, id] at hR
  rw [hR]
  have hg : (extrudeGeom (M.el i) (sliceElem M false k i) (z.getD k 0) (z.getD (k + 1) 0)).bcs = (sliceElem M false k i).bcs := rfl
  rw [hg]
  unfold sliceElem
  rw [if_neg (by omega), offset_el _ _ _ _ (by omega)]
  have : f < 2 * M.ndim := by rw [A.ndim]; omega
  simp only [hb, this, and_self, if_true]
  exact hE

/-- **C50 is false**, concrete: the 2×2 channel extruded to two layers. -/
theorem extrude_no_internal_false : ∃ R, extrude Samples.channel [0, 1, 2] none none false = .ok R ∧ (R.bc 4 0 1).typ = nE := by
  have A : ExtrudeArgs Samples.channel [0, 1, 2] none none := ⟨Samples.wf_of_wfB _ (by decide +kernel), by decide +kernel,
    by decide +kernel, by decide +kernel, by decide, (by simp), (by simp), (by rw [← oneSidedP_iff]; decide +kernel)⟩
  obtain ⟨R, h1, h2⟩ := extrude_keeps_internal Samples.channel [0, 1, 2] none none A 0 0 1 (by decide +kernel) (by decide +kernel)
    (by decide) (by decide +kernel)
  have hn : Samples.channel.nel = 4 := by decide +kernel
  have := h2 1 (by decide) (by decide)
  rw [hn] at this
  exact ⟨R, h1, this⟩

/-- **C50, what holds.** No `'E'` is left if there is only one layer, or if the 2D mesh has no `'E'`.
Missing: two or more layers of a mesh with internal conditions, for which the statement is false
(`extrude_keeps_internal`). -/
theorem extrude_no_internal_partial (M : HexaData F) (z : List F) (o1 o2 : Option (List Name)) (A : ExtrudeArgs M z o1 o2)
    (hE : ∀ b < M.nbc, sideBC o1 b ≠ nE ∧ sideBC o2 b ≠ nE)
    (h : z.length = 2 ∨ ∀ i < M.nel, ∀ b < M.nbc, ∀ f < 6, (M.bc i b f).typ ≠ nE) :
    ∃ R, extrude M z o1 o2 false = .ok R ∧ ∀ e < R.elem.length, ∀ b < R.nbc, ∀ f < 6, (R.bc e b f).typ ≠ nE := by
  obtain ⟨R, h1, ⟨a1, a2, a3, -⟩, h3, h4⟩ := extrude_ok A false
  refine ⟨R, h1, fun e he b hb f hf => ?_⟩
  have hn := A.wf.nel
  rw [a3] at hb
  obtain ⟨i, hi, k, hk, rfl⟩ := elnum_cases (h3 ▸ he)
  have hs1 := endList_getD M.nbc o1 b hb
  have hs2 := endList_getD M.nbc o2 b hb
  have hbase : ((sliceElem M false k i).bcs b f).typ ≠ nE := by
    unfold sliceElem
    by_cases hk0 : k = 0
    · rw [if_pos hk0]
      simp only [Bool.false_eq_true, if_false]
      have : ((deleteInternalBcs M).1.el i).bcs b f = _ := delete_bc M i b f (by omega)
      rw [this, if_pos ⟨hb, hf⟩]
      unfold BC.clearE
      split_ifs with h'
      · exact fun h => by cases h
      · exact h'
    · rw [if_neg hk0, offset_el _ _ _ _ (by omega)]
      rcases h with h | h
      · omega
      · have := h i hi b hb f hf
        dsimp only
        split_ifs
        · exact this
        · exact this
  have hR : R.bc (i + M.nel * k) b f = _ := congrArg (fun e => e.bcs b f) (h4 k hk i hi)
  rw [hR]
  simp only [extrudeEnds, if_pos hb, hs1, hs2, Bool.false_eq_true, if_false, id]
  by_cases c1 : f = 4 ∧ i + M.nel * k < M.nel
  · rw [if_pos c1]
    exact fun h => (hE b hb).1 ((u3_single _ 'E').1 h)
  · rw [if_neg c1]
    by_cases c2 : f = 5 ∧ (z.length - 1 - 1) * M.nel ≤ i + M.nel * k
    · rw [if_pos c2]
      exact fun h => (hE b hb).2 ((u3_single _ 'E').1 h)
    · rw [if_neg c2]
      exact hbase

/-! ## A case that meets all hypotheses: the 2×2 channel in three layers between walls. -/

theorem Samples.extrudeArgs : ExtrudeArgs Samples.channel [0, 1, 3, 7] (some [Samples.nW]) (some [['v']]) :=
  ⟨Samples.wf_of_wfB _ (by decide +kernel), by decide +kernel, by decide +kernel, by decide +kernel, by decide,
    (by intro l h; cases h; decide +kernel), (by intro l h; cases h; decide +kernel), (by rw [← oneSidedP_iff]; decide +kernel)⟩

theorem channel_eq : genBox .little 2 2 (0 : ℚ) (0 + (2 : ℕ)) 0 (2 : ℕ) ⟨2, 2, 0, 0, 0⟩ (some [nP]) (some [nP]) (some [Samples.nW]) (some [Samples.nW]) true
    = .ok Samples.channel := by
  obtain ⟨M, h, _⟩ := genBox_ok (F := ℚ) (native := .little) (internal := true) (nx := 2) (ny := 2) (xmin := 0) (xmax := 0 + (2 : ℕ)) (ymin := 0)
      (ymax := (2 : ℕ)) (var := ⟨2, 2, 0, 0, 0⟩) (o1 := some [nP]) (o2 := some [nP]) (o3 := some [Samples.nW]) (o4 := some [Samples.nW])
      ⟨by decide, by decide, by norm_num, by norm_num, by decide, by decide, by decide, by decide⟩
  unfold Samples.channel Samples.box
  rw [h]; rfl

theorem Samples.channel_sameCentre : Valid Samples.channel (SameCentre Samples.channel) := by
  obtain ⟨M, h, _, _, hv, _⟩ := gen_box_valid (F := ℚ) .little 2 2 0 (0 + (2 : ℕ)) 0 (2 : ℕ) ⟨2, 2, 0, 0, 0⟩ (some [nP]) (some [nP]) (some [Samples.nW]) (some [Samples.nW])
      ⟨by decide, by decide, by norm_num, by norm_num, by decide, by decide, by decide, by decide⟩ (by unfold SidesOk; decide)
  rw [channel_eq] at h
  obtain rfl : Samples.channel = M := by simpa using h
  exact hv

example : Valid Samples.channel (SameCentreXY Samples.channel) := by
  intro b hb x hx hx2 hl
  obtain ⟨y, y1, y2, y3, y4, y5, y6⟩ := Samples.channel_sameCentre b hb x hx hx2 hl
  exact ⟨y, y1, y2, y3, y4, y5, fun h d hd => y6 h d (by omega)⟩
example : Vertex2D Samples.channel := by unfold Vertex2D; decide +kernel
example : ∀ b < Samples.channel.nbc, sideBC (some [Samples.nW]) b ≠ nE ∧ sideBC (some [['v']]) b ≠ nE := by decide +kernel
/-- one layer satisfies the hypotheses of `extrude_no_internal_partial` -/
example : ExtrudeArgs Samples.channel [0, 5] none none :=
  ⟨Samples.wf_of_wfB _ (by decide +kernel), by decide +kernel, by decide +kernel, by decide +kernel, by decide, (by simp), (by simp),
    (by rw [← oneSidedP_iff]; decide +kernel)⟩
example : OneSided (endList 1 none) (endList 1 (some [['v']])) := by rw [← oneSidedP_iff]; decide

end Pymech
