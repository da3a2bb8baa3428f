import Verif.Lemmas.Rea
import Verif.Mesh.FloatExtrude
import Verif.Props.Extrude
import Verif.Props.GenerateFloat

/-!
# C145: `extrude` in double precision
-/

set_option autoImplicit false

namespace Pymech

open Spec Flt

namespace Spec

/-- Arguments that `extrude` accepts: a well formed 2D mesh with two points per direction, at least two z values (any doubles), and enough end
conditions which are periodic at both ends or at none. -/
structure ExtrudeArgsF (M : HexaData F64) (z : List F64) (o1 o2 : Option (List Name)) : Prop where
  wf : WFF M
  ndim : M.ndim = 2
  lr1 : M.lr1 = ⟨2, 2, 1, true⟩
  var : 2 ≤ M.var.pos
  shape : ∀ el ∈ M.elem, el.pos.lx = 2 ∧ el.pos.ly = 2 ∧ el.pos.lz = 1
  two : 2 ≤ z.length
  len1 : ∀ l, o1 = some l → M.nbc ≤ l.length
  len2 : ∀ l, o2 = some l → M.nbc ≤ l.length
  ends : ¬ OneSided (endList M.nbc o1) (endList M.nbc o2)
  size : M.nel * (z.length - 1) ≤ 2 ^ 52

end Spec

/-! ### Renumbering -/

/-- The result of `offset_connectivity` if all numbers can be read. -/
def offF (M : HexaData F64) (o : Nat) : HexaData F64 :=
  { M with elem := M.elem.map fun el : Elem F64 =>
      (el.mapBC M.nbc (2 * M.ndim) (BC.offsetLinkF o 0)).mapBC M.nbc (2 * M.ndim) (BC.offsetOwn o 0) }

theorem offsetF_ok (M : HexaData F64) (o : Nat) (hM : LinksWhole M) : M.offsetConnectivityF o 0 = .ok (offF M o) := by
  have hr := mapM_eq_ok (fun el : Elem F64 => (prod2 (List.range M.nbc) (List.range (2 * M.ndim))).mapM fun t => (el.bcs t.1 t.2).readLink)
    (fun el => (prod2 (List.range M.nbc) (List.range (2 * M.ndim))).map fun t =>
      if (el.bcs t.1 t.2).typ = nE ∨ (el.bcs t.1 t.2).typ = nP then trunc (el.bcs t.1 t.2).p3.val else 0) M.elem (fun el hel => by
    refine mapM_eq_ok _ _ _ (fun t ht => ?_)
    simp only [mem_prod2, List.mem_range] at ht
    unfold BC.readLink
    by_cases hl : (el.bcs t.1 t.2).typ = nE ∨ (el.bcs t.1 t.2).typ = nP
    · rw [if_pos hl, if_pos hl, truncF_fin (hM el hel t.1 ht.1 t.2 ht.2 hl).1]
    · rw [if_neg hl, if_neg hl]; rfl)
  have e2 : mapFrom 0 (fun el : Elem F64 => el.mapBC M.nbc (2 * M.ndim) (BC.offsetOwn o 0))
        (M.elem.map fun el : Elem F64 => el.mapBC M.nbc (2 * M.ndim) (BC.offsetLinkF o 0)) =
      M.elem.map fun el : Elem F64 => (el.mapBC M.nbc (2 * M.ndim) (BC.offsetLinkF o 0)).mapBC M.nbc (2 * M.ndim) (BC.offsetOwn o 0) := by
    unfold mapFrom
    apply List.ext_getElem?
    intro k
    simp only [List.getElem?_mapIdx, List.getElem?_map, Nat.zero_le, if_true]
    cases M.elem[k]? <;> rfl
  unfold HexaData.offsetConnectivityF
  rw [hr]
  simp only [bind, Except.bind, pure, Except.pure]
  unfold offF
  exact congrArg (fun l => Except.ok { M with elem := l }) e2

theorem offF_vals (M : HexaData F64) (o : Nat) (ho : o ≤ 2 ^ 52) (hM : LinksWhole M) : (offF M o).vals = M.vals.offsetConnectivity o 0 := by
  unfold HexaData.offsetConnectivity HexaData.vals offF mapFrom
  simp only [HexaData.mk.injEq, true_and, and_true]
  apply List.ext_getElem?
  intro k
  simp only [List.getElem?_mapIdx, List.getElem?_map, Nat.zero_le, if_true]
  cases hk : M.elem[k]? with
  | none => rfl
  | some el =>
    have hel : el ∈ M.elem := List.mem_of_getElem? hk
    simp only [Option.map_some]
    refine congrArg some ?_
    rw [mapBC_vals _ _ _ _ (BC.offsetOwn o 0) (fun b _ f _ => offsetOwn_vals _ _ _),
      mapBC_vals el _ _ _ (BC.offsetLink o 0) (fun b hb f hf => (offsetLinkF_vals o 0 ho _ (hM el hel b hb f hf)).1)]
    rfl

theorem offF_finite (M : HexaData F64) (o : Nat) (ho : o ≤ 2 ^ 52) (hM : LinksWhole M) (el : Elem F64) (hel : el ∈ (offF M o).elem) (b f : Nat)
    (hb : b < M.nbc) (hf : f < 2 * M.ndim) (hl : (el.bcs b f).typ = nE ∨ (el.bcs b f).typ = nP) : (el.bcs b f).p3.Finite ∧ (el.bcs b f).p4.Finite := by
  obtain ⟨a, ha, rfl⟩ := List.mem_map.1 hel
  have e : ((a.mapBC M.nbc (2 * M.ndim) (BC.offsetLinkF o 0)).mapBC M.nbc (2 * M.ndim) (BC.offsetOwn o 0)).bcs b f =
      ((a.bcs b f).offsetLinkF o 0).offsetOwn o 0 := by
    simp only [Elem.mapBC, if_pos (And.intro hb hf)]
  rw [e] at hl ⊢
  have hown : ∀ r : BC F64, (r.offsetOwn o 0).typ = r.typ ∧ (r.offsetOwn o 0).p3 = r.p3 ∧ (r.offsetOwn o 0).p4 = r.p4 := by
    intro r; unfold BC.offsetOwn; split_ifs <;> exact ⟨rfl, rfl, rfl⟩
  obtain ⟨h1, h2, h3⟩ := hown ((a.bcs b f).offsetLinkF o 0)
  rw [h1] at hl
  rw [h2, h3]
  exact (offsetLinkF_vals o 0 ho _ (hM a ha b hb f hf)).2 hl

/-! ### Values -/

theorem geomF_vals (base el : Elem F64) (z1 z2 : F64) : (extrudeGeom base el z1 z2).vals = extrudeGeom base.vals el.vals z1.val z2.val := by
  unfold extrudeGeom Elem.vals Arr.vals
  simp only [Elem.mk.injEq, true_and, and_true, Arr.mk.injEq]
  refine ⟨?_, ?_⟩
  · funext d k j i; split_ifs <;> rfl
  · funext e c; split_ifs <;> rfl

theorem val56 : ((5 : F64).val = 5 ∧ (5 : F64).Finite) ∧ ((6 : F64).val = 6 ∧ (6 : F64).Finite) := by
  obtain ⟨a, b⟩ := natCast_exact 5 (by norm_num)
  obtain ⟨c, d⟩ := natCast_exact 6 (by norm_num)
  exact ⟨⟨by exact_mod_cast b, a⟩, by exact_mod_cast d, c⟩

theorem innerF_vals (n nbc iel : Nat) (el : Elem F64) (hs : iel + n + 1 ≤ 2 ^ 53)
    (h : ∀ b < nbc, ∀ f < 4, (el.bcs b f).typ = nE → (el.bcs b f).p3.Finite) :
    (extrudeInner n nbc iel el).vals = extrudeInner n nbc iel el.vals := by
  unfold extrudeInner Elem.vals
  refine congrArg (Elem.mk _ _ _ _ _ _ _ _) ?_
  funext b f
  by_cases hb : b < nbc
  swap
  · simp only [if_neg hb]
  simp only [if_pos hb]
  by_cases h4 : f = 4
  · simp only [if_pos h4, BC.vals]
    rw [(intCast_exact ((iel : Int) - n + 1) (by rw [abs_le]; omega)).2, val56.2.1]
  simp only [if_neg h4]
  by_cases h5 : f = 5
  · simp only [if_pos h5, BC.vals]
    rw [(intCast_exact ((iel : Int) + n + 1) (by rw [abs_le]; omega)).2, val56.1.1]
  simp only [if_neg h5]
  by_cases hf : f < 4
  swap
  · simp only [if_neg hf]
  simp only [if_pos hf]
  by_cases ht : (el.bcs b f).typ = nE
  swap
  · have ht' : ¬ (el.bcs b f).vals.typ = nE := ht
    simp only [if_neg ht, if_neg ht']
    rfl
  · have ht' : (el.bcs b f).vals.typ = nE := ht
    simp only [if_pos ht, if_pos ht']
    obtain ⟨c1, c2⟩ := intCast_exact ((iel : Int) - (iel + 1) + 1) (by rw [show (iel : Int) - (iel + 1) + 1 = 0 by ring]; norm_num)
    have fp := h b hb f hf ht
    simp only [BC.vals]
    rw [add_fin fp c1, c2, show (iel : Int) - (iel + 1) + 1 = 0 by ring, Int.cast_zero, add_zero, ofQ_rep _ _ fp]

theorem endsF_vals (n nz nbc : Nat) (bc1 bc2 : Nat → Name) (iel : Nat) (el : Elem F64) (hs : iel + (nz - 1) * n + 1 ≤ 2 ^ 53) :
    (extrudeEnds n nz nbc bc1 bc2 iel el).vals = extrudeEnds n nz nbc bc1 bc2 iel el.vals := by
  unfold extrudeEnds Elem.vals
  refine congrArg (Elem.mk _ _ _ _ _ _ _ _) ?_
  funext b f
  by_cases hb : b < nbc
  swap
  · simp only [if_neg hb]
  simp only [if_pos hb]
  have v0 : (0 : F64).val = 0 := zeroF_val
  by_cases h4 : f = 4 ∧ iel < n
  · simp only [if_pos h4, BC.vals]
    by_cases hP : bc1 b = nP
    · simp only [if_pos hP]
      rw [(intCast_exact (((iel + (nz - 1) * n : Nat) : Int) + 1) (by rw [abs_le]; omega)).2, val56.2.1]
    · simp only [if_neg hP, v0]
  simp only [if_neg h4]
  by_cases h5 : f = 5 ∧ (nz - 1) * n ≤ iel
  · simp only [if_pos h5, BC.vals]
    by_cases hP : bc2 b = nP
    · simp only [if_pos hP]
      rw [(intCast_exact (((iel - (nz - 1) * n : Nat) : Int) + 1) (by rw [abs_le]; omega)).2, val56.1.1]
    · simp only [if_neg hP, v0]
  simp only [if_neg h5]

theorem innerF_finite (n nbc iel : Nat) (el : Elem F64) (hs : iel + n + 1 ≤ 2 ^ 53)
    (h : ∀ b < nbc, ∀ f < 4, ((el.bcs b f).typ = nE ∨ (el.bcs b f).typ = nP) → (el.bcs b f).p3.Finite ∧ (el.bcs b f).p4.Finite)
    (b f : Nat) (hb : b < nbc) (hf : f < 6) (hl : IsLinkF ((extrudeInner n nbc iel el).bcs b f)) :
    ((extrudeInner n nbc iel el).bcs b f).p3.Finite ∧ ((extrudeInner n nbc iel el).bcs b f).p4.Finite := by
  unfold extrudeInner at hl ⊢
  simp only [if_pos hb] at hl ⊢
  by_cases h4 : f = 4
  · simp only [if_pos h4]
    exact ⟨(intCast_exact ((iel : Int) - n + 1) (by rw [abs_le]; omega)).1, val56.2.2⟩
  by_cases h5 : f = 5
  · simp only [if_neg h4, if_pos h5]
    exact ⟨(intCast_exact ((iel : Int) + n + 1) (by rw [abs_le]; omega)).1, val56.1.2⟩
  have h3 : f < 4 := by omega
  simp only [if_neg h4, if_neg h5, if_pos h3] at hl ⊢
  by_cases ht : (el.bcs b f).typ = nE
  · simp only [if_pos ht]
    obtain ⟨fp, fq⟩ := h b hb f h3 (Or.inl ht)
    refine ⟨?_, fq⟩
    obtain ⟨c1, c2⟩ := intCast_exact ((iel : Int) - (iel + 1) + 1) (by rw [show (iel : Int) - (iel + 1) + 1 = 0 by ring]; norm_num)
    rw [add_fin fp c1, c2, show (iel : Int) - (iel + 1) + 1 = 0 by ring, Int.cast_zero, add_zero]
    unfold Flt.Finite at *
    rw [ofQ_mag]
    by_cases h0 : (el.bcs b f).p3.mag = 0
    · have := (val_zero_iff (el.bcs b f).p3).2 h0
      rw [this, ← ofQ_mag false 0]
      decide +kernel
    · have := ofQ_self false (el.bcs b f).p3 fp h0
      rw [← ofQ_mag false, this]
      exact fp
  · simp only [if_neg ht] at hl ⊢
    exact h b hb f h3 hl

theorem endsF_finite (n nz nbc : Nat) (bc1 bc2 : Nat → Name) (iel : Nat) (el : Elem F64) (hs : iel + (nz - 1) * n + 1 ≤ 2 ^ 53) (b f : Nat)
    (h : IsLinkF (el.bcs b f) → (el.bcs b f).p3.Finite ∧ (el.bcs b f).p4.Finite)
    (hl : IsLinkF ((extrudeEnds n nz nbc bc1 bc2 iel el).bcs b f)) :
    ((extrudeEnds n nz nbc bc1 bc2 iel el).bcs b f).p3.Finite ∧ ((extrudeEnds n nz nbc bc1 bc2 iel el).bcs b f).p4.Finite := by
  have f0 : (0 : F64).Finite := by decide +kernel
  unfold extrudeEnds at hl ⊢
  by_cases hb : b < nbc
  swap
  · simp only [if_neg hb] at hl ⊢
    exact h hl
  simp only [if_pos hb] at hl ⊢
  by_cases h4 : f = 4 ∧ iel < n
  · simp only [if_pos h4]
    by_cases hP : bc1 b = nP
    · simp only [if_pos hP]
      exact ⟨(intCast_exact (((iel + (nz - 1) * n : Nat) : Int) + 1) (by rw [abs_le]; omega)).1, val56.2.2⟩
    · simp only [if_neg hP]
      exact ⟨f0, f0⟩
  by_cases h5 : f = 5 ∧ (nz - 1) * n ≤ iel
  · simp only [if_neg h4, if_pos h5]
    by_cases hP : bc2 b = nP
    · simp only [if_pos hP]
      exact ⟨(intCast_exact (((iel - (nz - 1) * n : Nat) : Int) + 1) (by rw [abs_le]; omega)).1, val56.1.2⟩
    · simp only [if_neg hP]
      exact ⟨f0, f0⟩
  simp only [if_neg h4, if_neg h5] at hl ⊢
  exact h hl

/-! ### The extruded mesh -/

theorem extrudeF_exact (M : HexaData F64) (z : List F64) (o1 o2 : Option (List Name)) (A : ExtrudeArgsF M z o1 o2) (hM : LinksWhole M) :
    ∃ R, extrudeF M z o1 o2 true = .ok R ∧ extrude M.vals (z.map val) o1 o2 true = .ok R.vals ∧ LinksFinite R ∧ R.ndim = 3 ∧ R.nbc = M.nbc ∧
      R.nel = M.nel * (z.length - 1) ∧ R.elem.length = M.nel * (z.length - 1) ∧
      ∀ e < M.nel * (z.length - 1), (R.el e).pos = (extrudeGeom (M.el (e % M.nel)) (M.el 0) (z.getD (e / M.nel) 0) (z.getD (e / M.nel + 1) 0)).pos := by
  have hz := A.two
  have hs := A.size
  have hn := A.wf.nel
  have hndim := A.ndim
  have hone : oneSidedP (endList M.nbc o1) (endList M.nbc o2) = false := by
    by_contra h; exact A.ends ((oneSidedP_iff _ _).1 (by simpa using h))
  have l1 := endList_length _ _ A.len1
  have l2 := endList_length _ _ A.len2
  obtain ⟨nz, hnz⟩ : ∃ nz, z.length = nz + 2 := ⟨z.length - 2, by omega⟩
  have hnz1 : z.length - 1 = nz + 1 := by omega
  have hnz0 : nz + 1 - 1 = nz := rfl
  have hsz : M.nel * nz + M.nel ≤ 2 ^ 52 := by rw [hnz1, Nat.mul_succ] at hs; exact hs
  have ho : ∀ k < nz, (k + 1) * M.nel ≤ 2 ^ 52 := by
    intro k hk
    have : (k + 1) * M.nel ≤ nz * M.nel := Nat.mul_le_mul_right _ hk
    rw [Nat.mul_comm nz] at this
    omega
  have hadds := mapM_eq_ok (fun k => M.offsetConnectivityF (((k + 1) * M.nel : Nat) : Int) 0) (fun k => offF M ((k + 1) * M.nel)) (List.range nz)
    (fun k _ => offsetF_ok M _ hM)
  set es := M.elem ++ (List.range nz).flatMap (fun k => (offF M ((k + 1) * M.nel)).elem) with hes
  have hlen : es.length = M.nel * (nz + 1) := by
    rw [hes, List.length_append, List.length_flatMap]
    simp only [offF, List.length_map, ← hn]
    simp only [List.map_const', List.sum_replicate, List.length_range, smul_eq_mul]
    ring
  have hev : es.map Elem.vals = M.vals.elem ++ (List.range nz).flatMap (fun k => (M.vals.offsetConnectivity (((k + 1) * M.nel : Nat) : Int) 0).elem) := by
    rw [hes, List.map_append, List.map_flatMap]
    congr 1
    refine List.flatMap_congr (fun k hk => ?_)
    rw [← offF_vals M _ (ho k (List.mem_range.1 hk)) hM]
    rfl
  have hfin : ∀ el ∈ es, ∀ b < M.nbc, ∀ f < 4, ((el.bcs b f).typ = nE ∨ (el.bcs b f).typ = nP) → (el.bcs b f).p3.Finite ∧ (el.bcs b f).p4.Finite := by
    intro el hel b hb f hf hl
    rcases List.mem_append.1 hel with h | h
    · have := hM el h b hb f (by omega) hl
      exact ⟨this.1, this.2.1⟩
    · obtain ⟨k, hk, hk'⟩ := List.mem_flatMap.1 h
      exact offF_finite M _ (ho k (List.mem_range.1 hk)) hM el hk' b f hb (by omega) hl
  set g : Nat → Elem F64 → Elem F64 := fun iel el =>
    extrudeEnds M.nel (nz + 1) M.nbc (fun b => (endList M.nbc o1).getD b []) (fun b => (endList M.nbc o2).getD b []) iel
      (extrudeInner M.nel M.nbc iel (extrudeGeom (M.el (iel % M.nel)) el (z.getD (iel / M.nel) 0) (z.getD (iel / M.nel + 1) 0))) with hg
  have bnd : ∀ e < M.nel * (nz + 1), e + M.nel + 1 ≤ 2 ^ 53 ∧ e + (nz + 1 - 1) * M.nel + 1 ≤ 2 ^ 53 := by
    intro e he
    rw [Nat.mul_succ] at he
    rw [hnz0, Nat.mul_comm nz]
    omega
  refine ⟨{ M with
      lr1 := ⟨2, 2, 2, true⟩
      var := ⟨3, 0, 0, 0, 0⟩
      nel := M.nel * (nz + 1)
      ndim := 3
      ncurv := 2 * (nz + 1) * M.ncurv
      elem := es.mapIdx g }, ?_, ?_, ?_, rfl, rfl, by rw [hnz1], ?_, ?_⟩
  · unfold extrudeF
    have hv := A.var
    change (if M.ndim ≠ 2 then _ else if M.lr1 ≠ ⟨2, 2, 1, true⟩ then _ else if M.var.pos < 2 then _ else
      if oneSidedP (endList M.nbc o1) (endList M.nbc o2) then _ else _) = _
    rw [if_neg (not_not.2 hndim), if_neg (not_not.2 A.lr1), if_neg (by omega), if_neg (by rw [hone]; simp)]
    simp only [if_true, hnz1, hnz0]
    rw [hadds]
    simp only [bind, Except.bind]
    change (if M.nel ≠ 0 ∧ ((endList M.nbc o1).length < M.nbc ∨ (endList M.nbc o2).length < M.nbc) then _ else _) = _
    rw [if_neg (by omega), if_neg (by omega)]
    simp only [List.mapIdx_mapIdx, List.flatMap_map]
    rfl
  · have hlz : (z.map val).length = z.length := List.length_map _
    have hgz : ∀ k, (z.map val).getD k 0 = (z.getD k 0).val := by
      intro k
      rw [List.getD_eq_getElem?_getD, List.getD_eq_getElem?_getD, List.getElem?_map]
      cases z[k]? with
      | none => exact zeroF_val.symm
      | some x => rfl
    unfold extrude
    have hv := A.var
    change (if M.ndim ≠ 2 then _ else if M.lr1 ≠ ⟨2, 2, 1, true⟩ then _ else if M.var.pos < 2 then _ else
      if oneSidedP (endList M.nbc o1) (endList M.nbc o2) then _ else
      if M.nel ≠ 0 ∧ ((endList M.nbc o1).length < M.nbc ∨ (endList M.nbc o2).length < M.nbc) then _ else _) = _
    rw [if_neg (not_not.2 hndim), if_neg (not_not.2 A.lr1), if_neg (by omega), if_neg (by rw [hone]; simp), if_neg (by omega), hlz, if_neg (by omega)]
    simp only [if_true, hnz1, hnz0, List.mapIdx_mapIdx]
    refine congrArg Except.ok ?_
    unfold HexaData.vals
    simp only [HexaData.mk.injEq, true_and, and_true]
    refine Eq.trans (congrArg (List.mapIdx _) hev.symm) ?_
    apply List.ext_getElem?
    intro e
    simp only [List.getElem?_mapIdx, List.getElem?_map]
    cases hk : es[e]? with
    | none => rfl
    | some el =>
      simp only [Option.map_some]
      refine congrArg some ?_
      obtain ⟨he, -⟩ := List.getElem?_eq_some_iff.1 hk
      obtain ⟨b1, b2⟩ := bnd e (hlen ▸ he)
      rw [hg]
      simp only [Function.comp]
      rw [endsF_vals _ _ _ _ _ _ _ b2, innerF_vals _ _ _ (extrudeGeom (M.el (e % M.nel)) el (z.getD (e / M.nel) 0) (z.getD (e / M.nel + 1) 0)) b1 (fun b hb f hf ht => (hfin el (List.mem_of_getElem? hk) b hb f hf (Or.inl ht)).1),
        geomF_vals, ← hgz, ← hgz, ← vals_el]
      rfl
  · intro e he b hb f hf hl
    have he' : e < (es.mapIdx g).length := he
    have he2 : e < es.length := by rwa [List.length_mapIdx] at he'
    obtain ⟨b1, b2⟩ := bnd e (hlen ▸ he2)
    unfold HexaData.bc at hl ⊢
    rw [HexaData.el_eq_getElem _ e he'] at hl ⊢
    simp only [List.getElem_mapIdx] at hl ⊢
    refine endsF_finite _ _ _ _ _ _ _ b2 b f (fun hl' => ?_) hl
    exact innerF_finite _ _ _ _ b1 (fun b hb f hf ht => hfin es[e] (List.getElem_mem he2) b hb f hf ht) b f hb hf hl'
  · simp [hlen, hnz1]
  · intro e he
    rw [hnz1] at he
    have he' : e < (es.mapIdx g).length := by rw [List.length_mapIdx, hlen]; exact he
    rw [HexaData.el_eq_getElem _ e he']
    simp only [List.getElem_mapIdx]
    rfl

/-- **C145.** If the linked faces of the 2D mesh have the same corners bit by bit and the link numbers are whole, then `extrude` in double precision
gives elements whose corners are those of the 2D elements at `z[k]` and `z[k+1]`, bit by bit; its links are those of the slices and the vertical ones,
linked faces have the same corners, and the mesh passes `check_connectivity` with any tolerance that is not negative, whatever the z values are. -/
theorem C145 (M : HexaData F64) (z : List F64) (o1 o2 : Option (List Name)) (A : ExtrudeArgsF M z o1 o2) (hM : LinksWhole M)
    (hE : ∀ b < M.nbc, sideBC o1 b ≠ nE ∧ sideBC o2 b ≠ nE) (hv : Valid M.vals (SameCorners M)) :
    ∃ R, extrudeF M z o1 o2 true = .ok R ∧ WFF R ∧ R.ndim = 3 ∧ R.nbc = M.nbc ∧ R.elem.length = M.nel * (z.length - 1) ∧
      (∀ k, k + 1 < z.length → ∀ i < M.nel, ∀ ky < 2, ∀ kx < 2, ∀ kz < 2,
        (R.el (i + M.nel * k)).pos.dat 0 kz ky kx = (M.el i).pos.dat 0 0 ky kx ∧ (R.el (i + M.nel * k)).pos.dat 1 kz ky kx = (M.el i).pos.dat 1 0 ky kx ∧
        some ((R.el (i + M.nel * k)).pos.dat 2 kz ky kx) = z[k + kz]?) ∧
      Valid R.vals (Stacked M.nel (SameCorners M)) ∧ LinkedF R (SameCorners R) ∧
      ∀ L, LibmBasic L → ∀ tol, NotNeg tol → R.checkConnectivityF L tol = .ok true := by
  obtain ⟨R, h1, h2, h3, h4, h5, h6, h7, h8⟩ := extrudeF_exact M z o1 o2 A hM
  have A' : ExtrudeArgs M.vals (z.map val) o1 o2 :=
    ⟨wf_vals M A.wf, A.ndim, A.lr1, A.var, by rw [List.length_map]; exact A.two, A.len1, A.len2, A.ends⟩
  obtain ⟨R', q1, q2, q3, q4⟩ := extrude_valid M.vals (z.map val) o1 o2 A' hE (SameCorners M) hv
  obtain rfl : R.vals = R' := by rw [h2] at q1; exact Except.ok.inj q1
  have hz := A.two
  have hwff : WFF R := by
    refine ⟨by rw [h6, h7], ?_, Or.inr h4, ?_⟩
    · intro el hel
      exact q2.rows el.vals (List.mem_map_of_mem hel)
    · intro el hel
      exact q3 el.vals (List.mem_map_of_mem hel)
  have pos : ∀ k, k + 1 < z.length → ∀ i < M.nel, (R.el (i + M.nel * k)).pos =
      ⟨3, 2, 2, 2, fun d kz j i' => if d = 2 then (if kz = 0 then z.getD k 0 else z.getD (k + 1) 0) else (M.el i).pos.dat d 0 j i'⟩ := by
    intro k hk i hi
    rw [h8 _ (elnum_lt hi (by omega)), Nat.add_mul_mod_self_left, Nat.mod_eq_of_lt hi, Nat.add_mul_div_left _ _ (by omega), Nat.div_eq_of_lt hi,
      Nat.zero_add]
    rfl
  have hzk : ∀ q, q < z.length → some (z.getD q 0) = z[q]? := by
    intro q hq; rw [List.getD_eq_getElem?_getD, List.getElem?_eq_getElem hq]; rfl
  have cor : ∀ k, k + 1 < z.length → ∀ i < M.nel, ∀ sx sy sz s' : Bool, ∀ d < 3, Spec.corner (R.el (i + M.nel * k)) sx sy sz d =
      if d = 2 then (if sz then z.getD (k + 1) 0 else z.getD k 0) else Spec.corner (M.el i) sx sy s' d := by
    intro k hk i hi sx sy sz s' d hd
    obtain ⟨a1, a2, a3⟩ := A.shape (M.el i) (M.el_mem i (by rw [← A.wf.nel]; exact hi))
    unfold Spec.corner
    rw [pos k hk i hi, a1, a2, a3]
    cases sx <;> cases sy <;> cases sz <;> cases s' <;> rfl
  have hst : ∀ x y : Face, x.1 < R.elem.length → y.1 < R.elem.length → Stacked M.nel (SameCorners M) x y → SameCorners R x y := by
    have vert : ∀ x y : Face, y.1 < R.elem.length → x.2 = 5 → y.2 = 4 → y.1 = x.1 + M.nel → SameCorners R x y := by
      rintro ⟨e, f⟩ ⟨e', f'⟩ hy hf hf' he a b d hd
      dsimp only at hy hf hf' he ⊢
      subst hf hf' he
      rw [h7] at hy
      obtain ⟨i, hi, k, hk, he⟩ := elnum_cases hy
      obtain ⟨k, rfl⟩ : ∃ q, k = q + 1 := by
        cases k with
        | zero => simp at he; omega
        | succ q => exact ⟨q, rfl⟩
      obtain rfl : e = i + M.nel * k := by rw [Nat.mul_succ] at he; omega
      rw [he]
      simp only [faceCoord]
      rw [cor k (by omega) i hi a b true true d hd, cor (k + 1) (by omega) i hi a b false true d hd]
      rfl
    rintro x y hx hy (⟨k, x0, y0, hx0, hy0, rfl, rfl, hx2, hy2, h⟩ | ⟨a, b, c⟩ | ⟨a, b, c⟩)
    · have hk : k < z.length - 1 := by
        dsimp only at hx
        rw [h7] at hx
        by_contra hc
        have : M.nel * (z.length - 1) ≤ M.nel * k := Nat.mul_le_mul_left _ (by omega)
        omega
      intro a b d hd
      dsimp only
      have side : ∀ w : Face, w.1 < M.nel → w.2 < 4 → faceCoord (R.el (w.1 + M.nel * k)) w.2 a b d =
          if d = 2 then (if b then z.getD (k + 1) 0 else z.getD k 0) else faceCoord (M.el w.1) w.2 a b d := by
        rintro ⟨i, f⟩ hi hf
        dsimp only at hi hf ⊢
        rcases (by omega : f = 0 ∨ f = 1 ∨ f = 2 ∨ f = 3) with rfl | rfl | rfl | rfl <;> exact cor k (by omega) i hi _ _ _ _ d hd
      rw [side x0 hx0 hx2, side y0 hy0 hy2, h a b d hd]
    · exact vert x y hy a b c
    · exact fun a' b' d hd => (vert y x hx b a c a' b' d hd).symm
  have key : LinkedF R (SameCorners R) := by
    intro b hb x hx hx2 hl
    have hq := q4 b hb x (by rw [vals_length]; exact hx) hx2 (by
      change IsLink (R.vals.bc x.1 b x.2)
      rw [vals_bc]; exact hl)
    obtain ⟨y, y1, y2, y3, y4, y5, y6⟩ := hq
    rw [vals_length] at y1
    have hy2 : y.2 < 2 * R.ndim := y2
    dsimp only at y3 y4 y5 y6
    rw [vals_bc] at y3 y5
    rw [vals_bc, vals_bc] at y4
    rw [vals_bc] at y6
    have ht : (R.bc y.1 b y.2).typ = (R.bc x.1 b x.2).typ := y4
    have f1 := h3 x.1 hx b hb x.2 hx2 hl
    have f2 := h3 y.1 y1 b hb y.2 hy2 (by rw [ht]; exact hl)
    exact ⟨y, y1, by omega, ⟨f1.1, f1.2, y3⟩, ht, ⟨f2.1, f2.2, y5⟩, fun hE => hst x y hx y1 (y6 hE)⟩
  refine ⟨R, h1, hwff, h4, h5, h7, ?_, q4, key, fun L hL tol ht => C135 L hL R hwff tol ht key⟩
  intro k hk i hi ky hky kx hkx kz hkz
  rw [pos k hk i hi]
  refine ⟨rfl, rfl, ?_⟩
  rcases (by omega : kz = 0 ∨ kz = 1) with rfl | rfl
  · exact hzk k (by omega)
  · exact hzk (k + 1) hk

/-! ### Boxes -/

/-- The numbers of a record are finite, and the element number is a whole number up to 2^52. -/
def WholeF (r : BC F64) : Prop := r.p3.Finite ∧ r.p4.Finite ∧ ∃ k : Int, r.p3.val = k ∧ |k| ≤ 2 ^ 52

theorem wholeF_zero : WholeF BC.zero :=
  ⟨by decide +kernel, by decide +kernel, 0, by rw [Int.cast_zero]; exact zeroF_val, by norm_num⟩

theorem wholeF_wrLink (t : Name) (a b c d : Nat) (hc : c ≤ 2 ^ 52) (hd : d ≤ 2 ^ 53) (r : BC F64) : WholeF (wrLink t a b c d r) := by
  refine ⟨(natCast_exact c (by omega)).1, (natCast_exact d hd).1, c, (natCast_exact c (by omega)).2, ?_⟩
  rw [abs_of_nonneg (by omega)]
  exact_mod_cast hc

theorem wholeF_wrExt (t : Name) (a b c d : Nat) (hc : c ≤ 2 ^ 52) (hd : d ≤ 2 ^ 53) (r : BC F64) (hr : WholeF r) : WholeF (wrExt t a b c d r) := by
  unfold wrExt
  split_ifs
  · exact wholeF_wrLink (u3 t) a b c d hc hd r
  · exact hr

/-- A box in double precision has what `C145` asks for. -/
theorem genBoxF_extrudable (native : Endian) (nx ny : Nat) (xmin xmax ymin ymax : F64) (var : Var) (o1 o2 o3 o4 : Option (List Name))
    (A : BoxArgsF nx ny xmin xmax ymin ymax var o1 o2 o3 o4) (hS : ∀ b < boxNbc var, SidesOk o1 o2 o3 o4 b) (hsz : nx * ny ≤ 2 ^ 52) :
    ∃ M : HexaData F64, genBox native nx ny xmin xmax ymin ymax var o1 o2 o3 o4 true = .ok M ∧ WFF M ∧ M.ndim = 2 ∧ M.lr1 = ⟨2, 2, 1, true⟩ ∧
      M.var = var ∧ M.nbc = boxNbc var ∧ M.nel = nx * ny ∧ (∀ el ∈ M.elem, el.pos.lx = 2 ∧ el.pos.ly = 2 ∧ el.pos.lz = 1) ∧ LinksWhole M ∧
      Valid M.vals (SameCorners M) := by
  obtain ⟨M, h1, hw, hl⟩ := genBoxF_linked native nx ny xmin xmax ymin ymax var o1 o2 o3 o4 A hS
  obtain ⟨M', h1', h2, h3, h4⟩ := genBox_any (native := native) (internal := true) A.nx A.ny (range_pos A.x) (range_pos A.y) A.l1 A.l2 A.l3 A.l4
  obtain rfl : M = M' := by rw [h1] at h1'; exact Except.ok.inj h1'
  have hnbc : M.nbc = boxNbc var := by rw [h2]; rfl
  have hndim : M.ndim = 2 := by rw [h2]; rfl
  have bc : ∀ i < nx, ∀ j < ny, ∀ b < boxNbc var, ∀ f, M.bc (i + nx * j) b f =
      boxOuter nx ny i j (sideBC o1 b) (sideBC o2 b) (sideBC o3 b) (sideBC o4 b) f (boxInner nx ny i j f BC.zero) := by
    intro i hi j hj b hb f
    unfold HexaData.bc
    rw [h4 i hi j hj]
    simp only [if_pos hb, if_true]
  have num : ∀ i < nx, ∀ j < ny, elnum i j nx + 1 ≤ 2 ^ 52 := fun i hi j hj => elnum_le nx ny i j _ hi hj hsz
  have hnx := A.nx
  have hny := A.ny
  refine ⟨M, h1, hw, hndim, by rw [h2]; rfl, by rw [h2]; rfl, hnbc, by rw [h2]; rfl, ?_, ?_, ?_⟩
  · intro el hel
    obtain ⟨e, he, rfl⟩ := List.getElem_of_mem hel
    rw [← M.el_eq_getElem e he]
    obtain ⟨i, hi, j, hj, rfl⟩ := elnum_cases (h3 ▸ he)
    rw [h4 i hi j hj]
    exact ⟨rfl, rfl, rfl⟩
  · intro el hel b hb f hf _
    obtain ⟨e, he, rfl⟩ := List.getElem_of_mem hel
    rw [← M.el_eq_getElem e he]
    obtain ⟨i, hi, j, hj, rfl⟩ := elnum_cases (h3 ▸ he)
    change WholeF (M.bc (i + nx * j) b f)
    rw [bc i hi j hj b (hnbc ▸ hb) f]
    have inner : WholeF (boxInner nx ny i j f BC.zero : BC F64) := by
      unfold boxInner
      dsimp only
      split_ifs with a1 a2 a3 a4
      · exact wholeF_wrLink _ _ _ _ _ (num i hi (j - 1) (by omega)) (by norm_num) _
      · exact wholeF_wrLink _ _ _ _ _ (num (i + 1) (by omega) j hj) (by norm_num) _
      · exact wholeF_wrLink _ _ _ _ _ (num i hi (j + 1) (by omega)) (by norm_num) _
      · exact wholeF_wrLink _ _ _ _ _ (num (i - 1) (by omega) j hj) (by norm_num) _
      · exact wholeF_zero
    unfold boxOuter
    dsimp only
    split_ifs
    · exact wholeF_wrExt _ _ _ _ _ (num i hi (ny - 1) (by omega)) (by norm_num) _ inner
    · exact wholeF_wrExt _ _ _ _ _ (num i hi 0 hny) (by norm_num) _ inner
    · exact wholeF_wrExt _ _ _ _ _ (num (nx - 1) (by omega) j hj) (by norm_num) _ inner
    · exact wholeF_wrExt _ _ _ _ _ (num 0 hnx j hj) (by norm_num) _ inner
    · exact inner
  · intro b hb x hx hx2 hlk
    change IsLink (M.vals.bc x.1 b x.2) at hlk
    rw [vals_bc] at hlk
    rw [vals_length] at hx ⊢
    obtain ⟨y, y1, y2, y3, y4, y5, y6⟩ := hl b hb x hx hx2 hlk
    refine ⟨y, y1, ?_, ?_, ?_, ?_, ?_⟩
    · change y.2 < 2 * M.ndim
      rw [hndim]
      by_contra hc
      obtain ⟨i, hi, j, hj, hy⟩ := elnum_cases (h3 ▸ y1)
      have hz : M.bc y.1 b y.2 = BC.zero := by
        rw [hy, bc i hi j hj b (hnbc ▸ hb)]
        unfold boxOuter boxInner
        dsimp only
        rw [if_neg (by omega), if_neg (by omega), if_neg (by omega), if_neg (by omega), if_neg (by omega), if_neg (by omega), if_neg (by omega),
          if_neg (by omega)]
      rw [hz] at y4
      have hlk' : (M.bc x.1 b x.2).typ = nE ∨ (M.bc x.1 b x.2).typ = nP := hlk
      rw [← y4] at hlk'
      rcases hlk' with h | h <;> exact absurd h (by decide)
    · change PointsTo (M.vals.bc x.1 b x.2) y
      rw [vals_bc]; exact y3.2.2
    · change (M.vals.bc y.1 b y.2).typ = (M.vals.bc x.1 b x.2).typ
      rw [vals_bc, vals_bc]; exact y4
    · change PointsTo (M.vals.bc y.1 b y.2) x
      rw [vals_bc]; exact y5.2.2
    · intro h
      change (M.vals.bc x.1 b x.2).typ = nE at h
      rw [vals_bc] at h
      exact y6 h

/-- **C145, boxes.** A box of `gen_box` extruded in double precision passes `check_connectivity`, even with tolerance zero, and with any z values. -/
theorem C145_box (native : Endian) (nx ny : Nat) (xmin xmax ymin ymax : F64) (var : Var) (o1 o2 o3 o4 : Option (List Name))
    (A : BoxArgsF nx ny xmin xmax ymin ymax var o1 o2 o3 o4) (hS : ∀ b < boxNbc var, SidesOk o1 o2 o3 o4 b) (hvar : 2 ≤ var.pos)
    (z : List F64) (hz : 2 ≤ z.length) (hsz : nx * ny * (z.length - 1) ≤ 2 ^ 52) (p1 p2 : Option (List Name))
    (l1 : ∀ l, p1 = some l → boxNbc var ≤ l.length) (l2 : ∀ l, p2 = some l → boxNbc var ≤ l.length)
    (hp : ¬ OneSided (endList (boxNbc var) p1) (endList (boxNbc var) p2)) (hE : ∀ b < boxNbc var, sideBC p1 b ≠ nE ∧ sideBC p2 b ≠ nE) :
    ∃ M R : HexaData F64, genBox native nx ny xmin xmax ymin ymax var o1 o2 o3 o4 true = .ok M ∧ extrudeF M z p1 p2 true = .ok R ∧
      ∀ L, LibmBasic L → ∀ tol, NotNeg tol → R.checkConnectivityF L tol = .ok true := by
  have hsz' : nx * ny ≤ 2 ^ 52 := le_trans (Nat.le_mul_of_pos_right _ (by omega)) hsz
  obtain ⟨M, h1, h2, h3, h4, h5, h6, h7, h8, h9, h10⟩ := genBoxF_extrudable native nx ny xmin xmax ymin ymax var o1 o2 o3 o4 A hS hsz'
  obtain ⟨R, r1, -, -, -, -, -, -, -, r2⟩ := C145 M z p1 p2
    ⟨h2, h3, h4, by rw [h5]; exact hvar, h8, hz, by rw [h6]; exact l1, by rw [h6]; exact l2, by rw [h6]; exact hp, by rw [h7]; exact hsz⟩ h9
    (by rw [h6]; exact hE) h10
  exact ⟨M, R, h1, r1, r2⟩

namespace Samples

/-- Three by two elements, two layers, the second one flat, with a wall and an outlet. -/
example : ∃ M R : HexaData F64,
    genBox .little 3 2 f0 tenth one oneNext ⟨2, 2, 1, 1, 0⟩ none none (some [['W'], ['t']]) (some [['v'], ['f']]) true = .ok M ∧
    extrudeF M [f0, tenth, tenth] (some [['W'], ['t']]) (some [['O'], ['I']]) true = .ok R ∧ R.checkConnectivityF libm 0 = .ok true := by
  have two : ∀ b < boxNbc ⟨2, 2, 1, 1, 0⟩, b = 0 ∨ b = 1 := by
    intro b hb
    have : boxNbc ⟨2, 2, 1, 1, 0⟩ = 2 := rfl
    omega
  obtain ⟨M, R, h1, h2, h3⟩ := C145_box .little 3 2 f0 tenth one oneNext ⟨2, 2, 1, 1, 0⟩ none none (some [['W'], ['t']]) (some [['v'], ['f']])
    ⟨by norm_num, by norm_num, by norm_num, rangeTenth, rangeNext, (by simp), (by simp), (by rintro l ⟨⟩; decide), (by rintro l ⟨⟩; decide)⟩
    (by intro b hb; rcases two b hb with rfl | rfl <;> exact ⟨by decide, by decide, by decide⟩) (by decide)
    [f0, tenth, tenth] (by decide) (by simp) (some [['W'], ['t']]) (some [['O'], ['I']]) (by rintro l ⟨⟩; decide) (by rintro l ⟨⟩; decide)
    (by rw [← oneSidedP_iff]; decide) (by intro b hb; rcases two b hb with rfl | rfl <;> exact ⟨by decide, by decide⟩)
  exact ⟨M, R, h1, h2, h3 libm sqrt_basic 0 (fun _ => by rw [zeroF_val])⟩

end Samples

end Pymech
