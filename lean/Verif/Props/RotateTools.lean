import Verif.Props.Rotate
import Verif.Mesh.Extrude
import Verif.Mesh.Keep
import Verif.Props.Sphere
import Verif.Samples

/-!
# C123, C124 `rotate_2d` and the other mesh tools

Rotating a mesh before or after `merge`, `generate_internal_bcs`, `delete_internal_bcs`, `keep_elements` and `extrude` gives the
same mesh (C123). The curved edges should also be rotated (C124).
-/

set_option autoImplicit false
set_option linter.unusedSectionVars false

namespace Pymech

open Spec

section General

variable {F : Type} [Field F] [LinearOrder F] [IsStrictOrderedRing F] [FloorRing F]

theorem rotateElem_blank (c s : F) : rotateElem c s (Elem.blank : Elem F) = Elem.blank := by
  unfold rotateElem rotatePos Elem.blank Elem.new Arr.zeros
  simp

theorem rot_el (M : HexaData F) (x0 y0 c s : F) (i : Nat) : (rotate2d M x0 y0 c s).el i = rotateElem c s (M.el i) := by
  unfold HexaData.el rotate2d
  simp only [List.getD_eq_getElem?_getD, List.getElem?_map]
  cases M.elem[i]? with
  | none => simp [rotateElem_blank]
  | some a => rfl

theorem rot_bc (M : HexaData F) (x0 y0 c s : F) (i b f : Nat) : (rotate2d M x0 y0 c s).bc i b f = M.bc i b f := by
  unfold HexaData.bc
  rw [rot_el]
  rfl

theorem rot_modBC (M : HexaData F) (x0 y0 c s : F) (i b f : Nat) (g : BC F → BC F) :
    (rotate2d M x0 y0 c s).modBC i b f g = rotate2d (M.modBC i b f g) x0 y0 c s := by
  unfold HexaData.modBC rotate2d
  simp only
  congr 1
  apply List.ext_getElem?
  intro k
  simp only [List.getElem?_modify, List.getElem?_map]
  cases M.elem[k]? with
  | none => rfl
  | some a =>
    by_cases h : i = k
    · simp only [h, if_true]
      rfl
    · simp only [h, if_false]
      rfl

theorem rot_foldl {β : Type} (x0 y0 c s : F) (g : HexaData F → β → HexaData F)
    (h : ∀ M b, g (rotate2d M x0 y0 c s) b = rotate2d (g M b) x0 y0 c s) (l : List β) (M : HexaData F) :
    l.foldl g (rotate2d M x0 y0 c s) = rotate2d (l.foldl g M) x0 y0 c s := by
  induction l generalizing M with
  | nil => rfl
  | cons b l ih => rw [List.foldl_cons, List.foldl_cons, h, ih]

theorem rot_foldlM {β : Type} (x0 y0 c s : F) (g : HexaData F × Nat → β → Py (HexaData F × Nat))
    (h : ∀ M n b, g (rotate2d M x0 y0 c s, n) b = (g (M, n) b).map (Prod.map (rotate2d · x0 y0 c s) id)) (l : List β)
    (M : HexaData F) (n : Nat) :
    l.foldlM g (rotate2d M x0 y0 c s, n) = (l.foldlM g (M, n)).map (Prod.map (rotate2d · x0 y0 c s) id) := by
  induction l generalizing M n with
  | nil => rfl
  | cons b l ih =>
    rw [List.foldlM_cons, List.foldlM_cons, h]
    cases g (M, n) b with
    | error e => rfl
    | ok r => exact ih r.1 r.2

theorem rot_connect (M : HexaData F) (x0 y0 c s : F) (b e0 f0 e1 f1 : Nat) :
    (rotate2d M x0 y0 c s).connect b e0 f0 e1 f1 = rotate2d (M.connect b e0 f0 e1 f1) x0 y0 c s := by
  unfold HexaData.connect
  rw [rot_modBC, rot_modBC]

theorem rot_relink (M : HexaData F) (x0 y0 c s : F) (b : Nat) (i0 g0 i1 g1 : Int) (e0 f0 e1 f1 : Nat) :
    (rotate2d M x0 y0 c s).relink b i0 g0 i1 g1 e0 f0 e1 f1 = rotate2d (M.relink b i0 g0 i1 g1 e0 f0 e1 f1) x0 y0 c s := by
  unfold HexaData.relink
  rw [rot_modBC, rot_modBC]

theorem rot_mergePair (M : HexaData F) (x0 y0 c s : F) (nbc : Nat) (b0 b1 : Name) (e0 f0 e1 f1 : Nat) :
    (rotate2d M x0 y0 c s).mergePair nbc b0 b1 e0 f0 e1 f1 =
      (M.mergePair nbc b0 b1 e0 f0 e1 f1).map (rotate2d · x0 y0 c s) := by
  have hl : (rotate2d M x0 y0 c s).elem.length = M.elem.length := by simp [rotate2d]
  unfold HexaData.mergePair
  simp only [rot_bc, hl]
  by_cases h : b0 = b1 ∧ b1 = nP
  · rw [if_pos h, if_pos h]
    simp only [bind, Except.bind, pure, Except.pure]
    generalize pyIndex M.elem.length (trunc (M.bc e0 0 f0).p3 - 1) = q0
    cases q0 with
    | error e => rfl
    | ok q0 =>
      simp only
      generalize pyIndex M.elem.length (trunc (M.bc e1 0 f1).p3 - 1) = q1
      cases q1 with
      | error e => rfl
      | ok q1 =>
        simp only
        generalize pyIndex 6 (trunc (M.bc e0 0 f0).p4 - 1) = g0
        cases g0 with
        | error e => rfl
        | ok g0 =>
          simp only
          generalize pyIndex 6 (trunc (M.bc e1 0 f1).p4 - 1) = g1
          cases g1 with
          | error e => rfl
          | ok g1 =>
            simp only [Except.map]
            rw [rot_foldl _ _ _ _ _ (fun M b => rot_relink M x0 y0 c s b _ _ _ _ _ _ _ _),
              rot_foldl _ _ _ _ _ (fun M b => rot_connect M x0 y0 c s b _ _ _ _)]
  · rw [if_neg h, if_neg h]
    simp only [bind, Except.bind, pure, Except.pure, Except.map]
    rw [rot_foldl _ _ _ _ _ (fun M b => rot_connect M x0 y0 c s b _ _ _ _)]

theorem rot_mergeInner (touch : Nat → Nat → Nat → Nat → Py Bool) (x0 y0 c s : F) (nbc : Nat) (ig : Bool) (e0 f0 : Nat) (bc0 : Name)
    (M : HexaData F) (n : Nat) (t : Nat × Nat) :
    mergeInner touch nbc ig e0 f0 bc0 (rotate2d M x0 y0 c s, n) t =
      (mergeInner touch nbc ig e0 f0 bc0 (M, n) t).map (Prod.map (rotate2d · x0 y0 c s) id) := by
  obtain ⟨e1, f1⟩ := t
  unfold mergeInner
  simp only [rot_bc]
  by_cases h : (M.bc e1 0 f1).typ ≠ nE ∧ ¬ (ig = true ∧ (M.bc e1 0 f1).typ = [])
  · rw [if_pos h, if_pos h]
    cases touch e0 f0 e1 f1 with
    | error e => rfl
    | ok b =>
      cases b with
      | false => rfl
      | true =>
        simp only [bind, Except.bind, if_true, rot_mergePair]
        cases M.mergePair nbc bc0 (M.bc e1 0 f1).typ e0 f0 e1 f1 <;> rfl
  · rw [if_neg h, if_neg h]
    rfl

theorem rot_mergeOuter (touch : Nat → Nat → Nat → Nat → Py Bool) (x0 y0 c s : F) (nbc : Nat) (ig : Bool) (nel1 nf : Nat)
    (M : HexaData F) (n : Nat) (t : Nat × Nat) :
    mergeOuter touch nbc ig nel1 nf (rotate2d M x0 y0 c s, n) t =
      (mergeOuter touch nbc ig nel1 nf (M, n) t).map (Prod.map (rotate2d · x0 y0 c s) id) := by
  obtain ⟨e0, f0⟩ := t
  unfold mergeOuter
  simp only [rot_bc]
  by_cases h : (M.bc e0 0 f0).typ ≠ nE ∧ ¬ (ig = true ∧ (M.bc e0 0 f0).typ = [])
  · rw [if_pos h, if_pos h]
    exact rot_foldlM _ _ _ _ _ (fun M n b => rot_mergeInner touch x0 y0 c s nbc ig e0 f0 _ M n b) _ _ _
  · rw [if_neg h, if_neg h]
    rfl

theorem rot_offset (M : HexaData F) (x0 y0 c s : F) (o : Int) (m : Nat) :
    (rotate2d M x0 y0 c s).offsetConnectivity o m = rotate2d (M.offsetConnectivity o m) x0 y0 c s := by
  unfold HexaData.offsetConnectivity rotate2d mapFrom
  simp only
  congr 1
  apply List.ext_getElem?
  intro k
  simp only [List.getElem?_mapIdx, List.getElem?_map, Option.map_map]
  cases M.elem[k]? with
  | none => rfl
  | some a =>
    simp only [Option.map_some, Function.comp]
    split <;> rfl

theorem rot_append (A B : HexaData F) (x0 y0 c s : F) :
    (rotate2d A x0 y0 c s).append (rotate2d B x0 y0 c s) = rotate2d (A.append B) x0 y0 c s := by
  unfold HexaData.append
  rw [rot_offset]
  simp only [rotate2d, List.map_append]

theorem rot_corner (c s : F) (el : Elem F) (k : Bool × Bool × Bool) :
    (rotateElem c s el).pos.corner k = (el.pos.corner k).map fun p => ⟨c * p.x - s * p.y, s * p.x + c * p.y, p.z⟩ := by
  unfold Arr.corner
  have h : ((rotateElem c s el).pos.lx, (rotateElem c s el).pos.ly, (rotateElem c s el).pos.lz) = (el.pos.lx, el.pos.ly, el.pos.lz) := rfl
  simp only [Prod.mk.injEq] at h
  rw [h.1, h.2.1, h.2.2]
  by_cases h0 : el.pos.lx = 0 ∨ el.pos.ly = 0 ∨ el.pos.lz = 0
  · rw [if_pos h0, if_pos h0]; rfl
  · rw [if_neg h0, if_neg h0]
    simp [Except.map, rotateElem, rotatePos]

theorem rot_faceCenter (c s : F) (el : Elem F) (f : Int) :
    (rotateElem c s el).faceCenter f = (el.faceCenter f).map fun p => ⟨c * p.x - s * p.y, s * p.x + c * p.y, p.z⟩ := by
  unfold Elem.faceCenter
  cases faceCorners f with
  | error e => rfl
  | ok k =>
    obtain ⟨k1, k2, k3, k4⟩ := k
    simp only [bind, Except.bind, rot_corner]
    cases el.pos.corner k1 with
    | error e => rfl
    | ok p1 =>
      cases el.pos.corner k2 with
      | error e => rfl
      | ok p2 =>
        cases el.pos.corner k3 with
        | error e => rfl
        | ok p3 =>
          cases el.pos.corner k4 with
          | error e => rfl
          | ok p4 =>
            simp only [Except.map, pure, Except.pure, Except.ok.injEq, V3.mk.injEq, and_true]
            constructor <;> ring

theorem rot_distSq (c s : F) (h : c ^ 2 + s ^ 2 = 1) (p q : V3 F) :
    distSq ⟨c * p.x - s * p.y, s * p.x + c * p.y, p.z⟩ ⟨c * q.x - s * q.y, s * q.x + c * q.y, q.z⟩ = distSq p q := by
  unfold distSq
  simp only
  linear_combination ((q.x - p.x) ^ 2 + (q.y - p.y) ^ 2) * h

theorem rot_pt (c s : F) (el : Elem F) (k j i : Nat) :
    (rotateElem c s el).pt k j i = ⟨c * (el.pt k j i).x - s * (el.pt k j i).y, s * (el.pt k j i).x + c * (el.pt k j i).y, (el.pt k j i).z⟩ := by
  simp [Elem.pt, rotateElem, rotatePos]

theorem rot_smallest (c s : F) (h : c ^ 2 + s ^ 2 = 1) (el : Elem F) : (rotateElem c s el).smallestEdgeSq = el.smallestEdgeSq := by
  unfold Elem.smallestEdgeSq
  simp only [rot_pt, rot_distSq c s h]
  rfl

theorem rot_close (c s : F) (h : c ^ 2 + s ^ 2 = 1) (a b : Elem F) (f0 f1 : Int) (tol : F) :
    closeFaces (rotateElem c s a) f0 (rotateElem c s b) f1 tol = closeFaces a f0 b f1 tol := by
  unfold closeFaces
  simp only [bind, Except.bind, rot_faceCenter, rot_smallest c s h]
  cases a.faceCenter f0 with
  | error e => rfl
  | ok p =>
    cases b.faceCenter f1 with
    | error e => rfl
    | ok q => simp only [Except.map, rot_distSq c s h]

theorem rot_merge (A B : HexaData F) (x0 y0 c s : F) (h : c ^ 2 + s ^ 2 = 1) (tol : F) (ie ia : Bool) :
    (rotate2d A x0 y0 c s).merge (rotate2d B x0 y0 c s) tol ie ia =
      (A.merge B tol ie ia).map (Prod.map (rotate2d · x0 y0 c s) id) := by
  unfold HexaData.merge
  have h1 : (rotate2d A x0 y0 c s).ndim = A.ndim ∧ (rotate2d B x0 y0 c s).ndim = B.ndim ∧ (rotate2d A x0 y0 c s).lr1 = A.lr1 ∧
    (rotate2d B x0 y0 c s).lr1 = B.lr1 := ⟨rfl, rfl, rfl, rfl⟩
  rw [h1.1, h1.2.1, h1.2.2.1, h1.2.2.2]
  by_cases h2 : A.ndim ≠ B.ndim
  · rw [if_pos h2, if_pos h2]; rfl
  · rw [if_neg h2, if_neg h2]
    by_cases h3 : A.lr1.x ≠ B.lr1.x
    · rw [if_pos h3, if_pos h3]; rfl
    · rw [if_neg h3, if_neg h3]
      simp only [rot_append, rot_el, rot_close c s h]
      unfold HexaData.mergeWith
      have h4 : (rotate2d A x0 y0 c s).nel = A.nel ∧ (rotate2d B x0 y0 c s).nel = B.nel ∧ (rotate2d A x0 y0 c s).nbc = A.nbc ∧
        (rotate2d B x0 y0 c s).nbc = B.nbc := ⟨rfl, rfl, rfl, rfl⟩
      rw [h4.1, h4.2.1, h4.2.2.1, h4.2.2.2, h1.1]
      simp only [rot_append]
      by_cases h5 : min A.nbc B.nbc = 0 ∨ ia = true
      · rw [if_pos h5, if_pos h5]; rfl
      · rw [if_neg h5, if_neg h5]
        exact rot_foldlM _ _ _ _ _ (fun M n b => rot_mergeOuter _ x0 y0 c s _ ie _ _ M n b) _ _ _

theorem rot_delete (M : HexaData F) (x0 y0 c s : F) :
    deleteInternalBcs (rotate2d M x0 y0 c s) = ((rotate2d (deleteInternalBcs M).1 x0 y0 c s), (deleteInternalBcs M).2) := by
  unfold deleteInternalBcs rotate2d
  simp only [List.map_map, Prod.mk.injEq]
  exact ⟨rfl, rfl⟩

theorem mapM_unit {α β γ : Type} (f : α → Py β) (g : α → Py γ) (l : List α)
    (h : ∀ a ∈ l, (f a).map (fun _ => ()) = (g a).map (fun _ => ())) : (l.mapM f).map (fun _ => ()) = (l.mapM g).map (fun _ => ()) := by
  induction l with
  | nil => rfl
  | cons a l ih =>
    have h1 := h a List.mem_cons_self
    have h2 := ih fun x hx => h x (List.mem_cons_of_mem _ hx)
    rw [List.mapM_cons, List.mapM_cons]
    cases hf : f a with
    | error e =>
      cases hg : g a with
      | error e' =>
        rw [hf, hg] at h1
        simp only [Except.map, Except.error.injEq] at h1
        rw [h1]
        rfl
      | ok y =>
        rw [hf, hg] at h1
        cases h1
    | ok x =>
      cases hg : g a with
      | error e' =>
        rw [hf, hg] at h1
        cases h1
      | ok y =>
        simp only [bind, Except.bind, pure, Except.pure]
        revert h2
        cases l.mapM f <;> cases l.mapM g <;> exact id

theorem bind_unit {α β γ : Type} (x : Py α) (y : Py β) (k : Py γ) (h : x.map (fun _ => ()) = y.map (fun _ => ())) :
    (x >>= fun _ => k) = (y >>= fun _ => k) := by
  revert h
  cases x <;> cases y <;> simp [Except.map, bind, Except.bind]

theorem rot_connectFull (M : HexaData F) (x0 y0 c s : F) (b e0 f0 e1 f1 : Nat) :
    (rotate2d M x0 y0 c s).connectFull b e0 f0 e1 f1 = rotate2d (M.connectFull b e0 f0 e1 f1) x0 y0 c s := by
  unfold HexaData.connectFull
  simp only [rot_modBC]

theorem rot_genStep (close : Nat → Nat → Nat → Nat → Bool) (x0 y0 c s : F) (nel nf : Nat) (g : GenState F) (t : Nat × Nat) :
    genStep close nel nf { g with mesh := rotate2d g.mesh x0 y0 c s } t =
      { genStep close nel nf g t with mesh := rotate2d (genStep close nel nf g t).mesh x0 y0 c s } := by
  obtain ⟨e1, f1⟩ := t
  unfold genStep
  simp only
  by_cases h : g.lc e1 f1 = true
  · rw [if_pos h, if_pos h]
  · rw [if_neg h, if_neg h]
    split
    · rfl
    · simp only
      have hn : (rotate2d g.mesh x0 y0 c s).nbc = g.mesh.nbc := rfl
      rw [hn, rot_foldl _ _ _ _ _ (fun M b => rot_connectFull M x0 y0 c s b _ _ _ _)]

theorem rot_generateWith (close : Nat → Nat → Nat → Nat → Bool) (M : HexaData F) (x0 y0 c s : F) :
    generateWith close (rotate2d M x0 y0 c s) = ((rotate2d (generateWith close M).1 x0 y0 c s), (generateWith close M).2) := by
  have key : ∀ (l : List (Nat × Nat)) (nel nf : Nat) (g : GenState F),
      l.foldl (genStep close nel nf) { g with mesh := rotate2d g.mesh x0 y0 c s } =
        { l.foldl (genStep close nel nf) g with mesh := rotate2d (l.foldl (genStep close nel nf) g).mesh x0 y0 c s } := by
    intro l nel nf
    induction l with
    | nil => intro g; rfl
    | cons t l ih => intro g; rw [List.foldl_cons, List.foldl_cons, rot_genStep, ih]
  unfold generateWith
  have h1 : (rotate2d M x0 y0 c s).ndim = M.ndim ∧ (rotate2d M x0 y0 c s).nel = M.nel := ⟨rfl, rfl⟩
  simp only [rot_bc, h1.1, h1.2]
  have := key (prod2 (List.range M.nel) (List.range (2 * M.ndim))) M.nel (2 * M.ndim) ⟨M, fun e f => decide ((M.bc e 0 f).typ ≠ []), 0⟩
  simp only at this
  rw [this]

theorem rot_generate (M : HexaData F) (x0 y0 c s : F) (h : c ^ 2 + s ^ 2 = 1) (tol : F) :
    generateInternalBcs (rotate2d M x0 y0 c s) tol = (generateInternalBcs M tol).map (Prod.map (rotate2d · x0 y0 c s) id) := by
  have h1 : (rotate2d M x0 y0 c s).elem.mapM scaleSq = M.elem.mapM scaleSq := by
    unfold rotate2d
    simp only [List.mapM_map]
    congr 1
    funext el
    simp only [Function.comp, scaleSq, rot_smallest c s h]
  have h2 : (rotate2d M x0 y0 c s).ndim = M.ndim := rfl
  unfold generateInternalBcs
  rw [h1, h2]
  simp only [rot_el, rot_close c s h, rot_generateWith]
  cases M.elem.mapM scaleSq with
  | error e => rfl
  | ok _ =>
    simp only [bind, Except.bind]
    have h3 : ((rotate2d M x0 y0 c s).elem.mapM fun el : Elem F => (List.range (2 * M.ndim)).mapM fun f : Nat => do
          let c ← el.faceCenter f
          let _ ← el.bcAt 0 f
          pure c).map (fun _ => ()) =
        (M.elem.mapM fun el : Elem F => (List.range (2 * M.ndim)).mapM fun f : Nat => do
          let c ← el.faceCenter f
          let _ ← el.bcAt 0 f
          pure c).map (fun _ => ()) := by
      unfold rotate2d
      simp only [List.mapM_map]
      refine mapM_unit _ _ _ fun el _ => mapM_unit _ _ _ fun f _ => ?_
      have hb : (rotateElem c s el).bcAt 0 f = el.bcAt 0 f := rfl
      simp only [rot_faceCenter, hb, bind, Except.bind]
      cases el.faceCenter f with
      | error e => rfl
      | ok p => cases el.bcAt 0 f <;> rfl
    simp only [bind, Except.bind] at h3
    revert h3
    generalize (List.mapM _ (rotate2d M x0 y0 c s).elem : Py (List (List (V3 F)))) = X
    generalize (List.mapM _ M.elem : Py (List (List (V3 F)))) = Y
    intro h3
    cases X <;> cases Y <;> simp only [Except.map, Except.error.injEq, reduceCtorEq] at h3 ⊢
    · exact h3
    · rfl

theorem rot_mapIdx (c s : F) (g g' : Nat → Elem F → Elem F) (h : ∀ i el, g i (rotateElem c s el) = rotateElem c s (g' i el)) (l : List (Elem F)) :
    (l.map (rotateElem c s)).mapIdx g = (l.mapIdx g').map (rotateElem c s) := by
  apply List.ext_getElem?
  intro k
  simp only [List.getElem?_mapIdx, List.getElem?_map]
  cases l[k]? with
  | none => rfl
  | some a => simp only [Option.map_some, h]

theorem rot_mapIdx' (c s : F) (g : Nat → Elem F → Elem F) (h : ∀ i el, g i (rotateElem c s el) = rotateElem c s (g i el)) (l : List (Elem F)) :
    (l.map (rotateElem c s)).mapIdx g = (l.mapIdx g).map (rotateElem c s) := rot_mapIdx c s g g h l

theorem rot_extrudeGeom (c s : F) (base el : Elem F) (z1 z2 : F) :
    extrudeGeom (rotateElem c s base) (rotateElem c s el) z1 z2 = rotateElem c s (extrudeGeom base el z1 z2) := by
  unfold extrudeGeom rotateElem rotatePos
  simp only [Elem.mk.injEq, Arr.mk.injEq, true_and, and_true]
  constructor
  · funext d k j i
    by_cases h0 : d = 0
    · subst h0; simp
    · by_cases h1 : d = 1
      · subst h1; simp
      · simp [h0, h1]
  · funext e q
    by_cases h4 : e < 4
    · have hn : ¬ 4 ≤ e := by omega
      have h12 : e < 12 := by omega
      by_cases hm : el.ccurv e = ['m']
      · by_cases q0 : q = 0
        · subst q0; simp [h4, hn, h12, hm]
        · by_cases q1 : q = 1
          · subst q1; simp [h4, hn, h12, hm]
          · simp [h4, hn, h12, hm, q0, q1]
      · simp [h4, hn, h12, hm]
    · by_cases h8 : e < 8
      · have hn : 4 ≤ e := by omega
        have h12 : e < 12 := by omega
        have h13 : e - 4 < 12 := by omega
        by_cases hm : el.ccurv (e - 4) = ['m']
        · by_cases q0 : q = 0
          · subst q0; simp [h4, h8, hn, h12, h13, hm]
          · by_cases q1 : q = 1
            · subst q1; simp [h4, h8, hn, h12, h13, hm]
            · simp [h4, h8, hn, h12, h13, hm, q0, q1]
        · simp [h4, h8, hn, h12, hm]
      · simp [h4, h8]

theorem rot_extrude (M : HexaData F) (x0 y0 c s : F) (z : List F) (bc1 bc2 : Option (List Name)) (ib : Bool) :
    extrude (rotate2d M x0 y0 c s) z bc1 bc2 ib = (extrude M z bc1 bc2 ib).map (rotate2d · x0 y0 c s) := by
  have hf : (rotate2d M x0 y0 c s).ndim = M.ndim ∧ (rotate2d M x0 y0 c s).nel = M.nel ∧ (rotate2d M x0 y0 c s).nbc = M.nbc ∧
    (rotate2d M x0 y0 c s).lr1 = M.lr1 ∧ (rotate2d M x0 y0 c s).var = M.var ∧ (rotate2d M x0 y0 c s).ncurv = M.ncurv :=
    ⟨rfl, rfl, rfl, rfl, rfl, rfl⟩
  have h0 : (if ib = true then rotate2d M x0 y0 c s else (deleteInternalBcs (rotate2d M x0 y0 c s)).1) =
      rotate2d (if ib = true then M else (deleteInternalBcs M).1) x0 y0 c s := by
    cases ib
    · simp only [Bool.false_eq_true, if_false, rot_delete]
    · rfl
  unfold extrude
  simp only [hf.1, hf.2.1, hf.2.2.1, hf.2.2.2.1, hf.2.2.2.2.1, hf.2.2.2.2.2, h0]
  generalize (if ib = true then M else (deleteInternalBcs M).1) = M0
  generalize bc1.getD (List.replicate M.nbc nP) = b1
  generalize bc2.getD (List.replicate M.nbc nP) = b2
  by_cases g1 : M.ndim ≠ 2
  · rw [if_pos g1, if_pos g1]; rfl
  rw [if_neg g1, if_neg g1]
  by_cases g2 : M.lr1 ≠ ⟨2, 2, 1, true⟩
  · rw [if_pos g2, if_pos g2]; rfl
  rw [if_neg g2, if_neg g2]
  by_cases g3 : M.var.pos < 2
  · rw [if_pos g3, if_pos g3]; rfl
  rw [if_neg g3, if_neg g3]
  by_cases g4 : oneSidedP b1 b2 = true
  · rw [if_pos g4, if_pos g4]; rfl
  rw [if_neg g4, if_neg g4]
  by_cases g5 : M.nel ≠ 0 ∧ (b1.length < M.nbc ∨ b2.length < M.nbc)
  · rw [if_pos g5, if_pos g5]; rfl
  rw [if_neg g5, if_neg g5]
  by_cases g6 : z.length < 2
  · rw [if_pos g6, if_pos g6]
    unfold extrudeFew
    simp only [hf.2.1, hf.2.2.1]
    by_cases g7 : z = [] ∧ M.nel ≠ 0 ∧ M.nbc ≠ 0
    · rw [if_pos g7, if_pos g7]; rfl
    rw [if_neg g7, if_neg g7]
    cases ib
    · simp only [Bool.false_eq_true, if_false, Except.map, rotate2d]
      rw [rot_mapIdx' c s _ (fun _ _ => by rfl)]
    · simp only [if_true, Except.map, rotate2d]
      rw [rot_mapIdx' c s _ (fun _ _ => by rfl), rot_mapIdx' c s _ (fun _ _ => by rfl)]
  rw [if_neg g6, if_neg g6]
  have hl : (rotate2d M0 x0 y0 c s).elem ++ (List.range (z.length - 1 - 1)).flatMap (fun k =>
        ((rotate2d M x0 y0 c s).offsetConnectivity (((k + 1) * M.nel : Nat) : Int) 0).elem) =
      (M0.elem ++ (List.range (z.length - 1 - 1)).flatMap (fun k =>
        (M.offsetConnectivity (((k + 1) * M.nel : Nat) : Int) 0).elem)).map (rotateElem c s) := by
    simp only [rot_offset, List.map_append, List.map_flatMap]
    rfl
  rw [hl]
  simp only [rot_el]
  generalize (M0.elem ++ (List.range (z.length - 1 - 1)).flatMap (fun k =>
        (M.offsetConnectivity (((k + 1) * M.nel : Nat) : Int) 0).elem)) = L
  rw [rot_mapIdx c s _ (fun iel el => extrudeGeom (M.el (iel % M.nel)) el (z.getD (iel / M.nel) 0) (z.getD (iel / M.nel + 1) 0))
    (fun i el => rot_extrudeGeom c s _ el _ _)]
  cases ib
  · simp only [Bool.false_eq_true, if_false, Except.map, rotate2d]
    rw [rot_mapIdx' c s _ (fun _ _ => by rfl)]
  · simp only [if_true, Except.map, rotate2d]
    rw [rot_mapIdx' c s _ (fun _ _ => by rfl), rot_mapIdx' c s _ (fun _ _ => by rfl)]

theorem rot_keepElem (st : KeepState) (nel nbc nf : Nat) (ext : Name) (iel o : Int) (c s : F) (el : Elem F) :
    keepElem st nel nbc nf ext iel o (rotateElem c s el) = (keepElem st nel nbc nf ext iel o el).map (rotateElem c s) := by
  unfold keepElem keepElemBy
  have hb : (rotateElem c s el).bcs = el.bcs := rfl
  simp only [hb]
  cases (prod2 (List.range nbc) (List.range nf)).mapM fun t => keepBC st nel ext iel o (el.bcs t.1 t.2) <;> rfl

theorem rot_updateNcurv (M : HexaData F) (x0 y0 c s : F) :
    (rotate2d M x0 y0 c s).updateNcurv = rotate2d M.updateNcurv x0 y0 c s := by
  unfold HexaData.updateNcurv rotate2d
  simp only [List.foldl_map]
  rfl

theorem rot_keepFold (st : KeepState) (ext : Name) (x0 y0 c s : F) (l : List Int) (M : HexaData F) :
    (l.foldlM (fun (M : HexaData F) iel => do
      let k ← pyIndex M.elem.length iel
      let el ← keepElem st M.nel M.nbc (2 * M.ndim) ext iel (st.offsets k) (M.el k)
      pure { M with elem := M.elem.set k el }) (rotate2d M x0 y0 c s) : Py (HexaData F)) =
    (l.foldlM (fun (M : HexaData F) iel => do
      let k ← pyIndex M.elem.length iel
      let el ← keepElem st M.nel M.nbc (2 * M.ndim) ext iel (st.offsets k) (M.el k)
      pure { M with elem := M.elem.set k el }) M : Py (HexaData F)).map (rotate2d · x0 y0 c s) := by
  induction l generalizing M with
  | nil => rfl
  | cons a l ih =>
    have hl : (rotate2d M x0 y0 c s).elem.length = M.elem.length := by simp [rotate2d]
    have hf : (rotate2d M x0 y0 c s).nel = M.nel ∧ (rotate2d M x0 y0 c s).nbc = M.nbc ∧ (rotate2d M x0 y0 c s).ndim = M.ndim := ⟨rfl, rfl, rfl⟩
    rw [List.foldlM_cons, List.foldlM_cons]
    simp only [hl, hf.1, hf.2.1, hf.2.2, rot_el, rot_keepElem]
    cases pyIndex M.elem.length a with
    | error e => rfl
    | ok k =>
      simp only [bind, Except.bind]
      cases keepElem st M.nel M.nbc (2 * M.ndim) ext a (st.offsets k) (M.el k) with
      | error e => rfl
      | ok el =>
        simp only [Except.map, pure, Except.pure]
        have hs : ({ rotate2d M x0 y0 c s with elem := (rotate2d M x0 y0 c s).elem.set k (rotateElem c s el) } : HexaData F) =
            rotate2d { M with elem := M.elem.set k el } x0 y0 c s := by
          simp [rotate2d, List.map_set]
        exact Eq.trans (congrArg (fun N => List.foldlM _ N l) hs) (ih _)

theorem rot_keepNew (x0 y0 c s : F) (l : List Int) (N : HexaData F) :
    (l.mapM (fun iel => do
      let k ← pyIndex (rotate2d N x0 y0 c s).elem.length iel
      pure ((rotate2d N x0 y0 c s).el k)) : Py (List (Elem F))) =
    (l.mapM (fun iel => do
      let k ← pyIndex N.elem.length iel
      pure (N.el k)) : Py (List (Elem F))).map (List.map (rotateElem c s)) := by
  have hl : (rotate2d N x0 y0 c s).elem.length = N.elem.length := by simp [rotate2d]
  induction l with
  | nil => rfl
  | cons a l ih =>
    rw [List.mapM_cons, List.mapM_cons, ih]
    simp only [hl, rot_el]
    cases pyIndex N.elem.length a with
    | error e => rfl
    | ok k =>
      generalize (List.mapM _ l : Py (List (Elem F))) = Y
      cases Y <;> rfl

theorem ok_then {α β : Type} (a : α) (f : α → Py β) : ((.ok a : Py α) >>= f) = f a := rfl

theorem rot_keep (M : HexaData F) (x0 y0 c s : F) (elems : List Int) (ext : Name) :
    keepElements (rotate2d M x0 y0 c s) elems ext = (keepElements M elems ext).map (rotate2d · x0 y0 c s) := by
  have hf : (rotate2d M x0 y0 c s).nel = M.nel := rfl
  unfold keepElements keepElementsBy
  simp only [hf]
  generalize elems.mergeSort (fun a b => decide (a ≤ b)) = L
  cases (L.foldlM (keepScan M.nel) ⟨fun _ => false, fun _ => 0, -1, 0⟩ : Py KeepState) with
  | error e => rfl
  | ok st =>
    simp only [ok_then, rot_keepFold]
    generalize (List.foldlM _ M L : Py (HexaData F)) = X
    cases X with
    | error e => rfl
    | ok N =>
      have hm : (Except.map (fun x => rotate2d x x0 y0 c s) (.ok N) : Py (HexaData F)) = .ok (rotate2d N x0 y0 c s) := rfl
      simp only [hm, ok_then, rot_keepNew]
      generalize (List.mapM _ L : Py (List (Elem F))) = Y
      cases Y with
      | error e => rfl
      | ok new =>
        simp only [Except.map, bind, Except.bind, pure, Except.pure, List.length_map]
        rw [← rot_updateNcurv]
        rfl

/-! ### C124 -/

namespace Spec

/-- The rotation around the z axis with the cosine `c` and the sine `s`. -/
def turned (c s : F) (p : V3 F) : V3 F := ⟨c * p.x - s * p.y, s * p.x + c * p.y, p.z⟩

end Spec

theorem rot_from (c s : F) (el : Elem F) (e : Nat) :
    edgeFrom (rotateElem c s el) e = turned c s (edgeFrom el e) ∧ edgeTo (rotateElem c s el) e = turned c s (edgeTo el e) := by
  constructor <;> simp [edgeFrom, edgeTo, point, turned, rotateElem, rotatePos]

theorem rot_arcMid (rt : F → F) (c s : F) (h : c ^ 2 + s ^ 2 = 1) (R : F) (p q : V3 F) :
    arcMid rt R (turned c s p) (turned c s q) = turned c s (arcMid rt R p q) := by
  unfold arcMid turned
  simp only
  have h1 : R ^ 2 - (c * q.x - s * q.y - (c * p.x - s * p.y)) ^ 2 / 4 - (s * q.x + c * q.y - (s * p.x + c * p.y)) ^ 2 / 4 =
      R ^ 2 - (q.x - p.x) ^ 2 / 4 - (q.y - p.y) ^ 2 / 4 := by
    linear_combination -((q.x - p.x) ^ 2 + (q.y - p.y) ^ 2) / 4 * h
  have h2 : (c * q.x - s * q.y - (c * p.x - s * p.y)) ^ 2 + (s * q.x + c * q.y - (s * p.x + c * p.y)) ^ 2 =
      (q.x - p.x) ^ 2 + (q.y - p.y) ^ 2 := by
    linear_combination ((q.x - p.x) ^ 2 + (q.y - p.y) ^ 2) * h
  rw [h1, h2]
  generalize (|R| - rt (R ^ 2 - (q.x - p.x) ^ 2 / 4 - (q.y - p.y) ^ 2 / 4)) / rt ((q.x - p.x) ^ 2 + (q.y - p.y) ^ 2) * R / |R| = k
  simp only [V3.mk.injEq, and_true]
  constructor <;> ring

theorem rot_sphereMid (rt : F → F) (c s : F) (h : c ^ 2 + s ^ 2 = 1) (R : F) (o p q : V3 F) (hx : o.x = 0) (hy : o.y = 0) :
    sphereMid rt R o (turned c s p) (turned c s q) = turned c s (sphereMid rt R o p q) := by
  unfold sphereMid turned
  simp only [hx, hy]
  have h1 : ((c * q.x - s * q.y + (c * p.x - s * p.y)) / 2 - 0) ^ 2 + ((s * q.x + c * q.y + (s * p.x + c * p.y)) / 2 - 0) ^ 2 +
        ((q.z + p.z) / 2 - o.z) ^ 2 =
      ((q.x + p.x) / 2 - 0) ^ 2 + ((q.y + p.y) / 2 - 0) ^ 2 + ((q.z + p.z) / 2 - o.z) ^ 2 := by
    linear_combination ((q.x + p.x) ^ 2 + (q.y + p.y) ^ 2) / 4 * h
  rw [h1]
  simp only [V3.mk.injEq, and_true]
  constructor <;> ring

/-- **C124, what holds.** The middle of an edge that is straight, an arc or given by its midpoint, or lies on a sphere whose centre is on
the axis, is rotated like the vertices. Missing: spheres with another centre, see `C124_false`. -/
theorem C124_partial (rt : F → F) (M : HexaData F) (x0 y0 c s : F) (h : c ^ 2 + s ^ 2 = 1) (i e : Nat) (he : HasEdge (M.el i) e)
    (hc : (M.el i).ccurv e = [] ∨ (M.el i).ccurv e = ['m'] ∨ (M.el i).ccurv e = ['C'] ∨
      ((M.el i).ccurv e = ['s'] ∧ (M.el i).curv e 0 = 0 ∧ (M.el i).curv e 1 = 0)) :
    ∃ m el1 el2, edgeMid rt (M.el i) e = .ok (m, el1) ∧ edgeMid rt ((rotate2d M x0 y0 c s).el i) e = .ok (turned c s m, el2) := by
  rw [rot_el]
  generalize M.el i = el at *
  have he' : HasEdge (rotateElem c s el) e := he
  rw [edgeMid_eq rt _ e he, edgeMid_eq rt _ e he']
  have hcc : (rotateElem c s el).ccurv = el.ccurv := rfl
  obtain ⟨h1, h2⟩ := rot_from c s el e
  rw [hcc, h1, h2]
  rcases hc with hc | hc | hc | ⟨hc, hx, hy⟩
  · rw [if_neg (by rw [hc]; decide), if_pos hc, if_neg (by rw [hc]; decide), if_pos hc]
    refine ⟨_, _, rotateElem c s el, rfl, ?_⟩
    congr 2
    unfold turned
    simp only [V3.mk.injEq, and_true]
    constructor <;> ring
  · rw [if_pos hc, if_pos hc]
    refine ⟨_, _, rotateElem c s el, rfl, ?_⟩
    congr 2
    have := he.1
    simp [Elem.cpt, turned, rotateElem, hc, this]
  · rw [if_neg (by rw [hc]; decide), if_neg (by rw [hc]; decide), if_pos hc, if_neg (by rw [hc]; decide), if_neg (by rw [hc]; decide), if_pos hc]
    have hv : (rotateElem c s el).curv e 0 = el.curv e 0 := by
      have : el.ccurv e ≠ ['m'] := by rw [hc]; decide
      simp [rotateElem, this]
    rw [hv, rot_arcMid rt c s h]
    exact ⟨_, _, _, rfl, rfl⟩
  · rw [if_neg (by rw [hc]; decide), if_neg (by rw [hc]; decide), if_neg (by rw [hc]; decide), if_pos hc, if_neg (by rw [hc]; decide),
      if_neg (by rw [hc]; decide), if_neg (by rw [hc]; decide), if_pos hc]
    have hv : (rotateElem c s el).curv e = el.curv e := by
      have : el.ccurv e ≠ ['m'] := by rw [hc]; decide
      funext q
      simp [rotateElem, this]
    have hp : (rotateElem c s el).cpt e = el.cpt e := by
      unfold Elem.cpt
      rw [hv]
    rw [hv, hp, rot_sphereMid rt c s h _ _ _ _ hx hy]
    exact ⟨_, _, _, rfl, rfl⟩

end General

/-! ### C123 -/

/-- **C123, `merge`.** Merging two rotated meshes gives the rotated merged mesh and the same number of connected faces, or the same error. -/
theorem C123_merge (A B : HexaData ℝ) (x0 y0 θ tol : ℝ) (ignoreEmpty ignoreAllBcs : Bool) :
    (rotateR A x0 y0 θ).merge (rotateR B x0 y0 θ) tol ignoreEmpty ignoreAllBcs =
      (A.merge B tol ignoreEmpty ignoreAllBcs).map fun r => (rotateR r.1 x0 y0 θ, r.2) :=
  rot_merge A B x0 y0 _ _ (Real.cos_sq_add_sin_sq θ) tol ignoreEmpty ignoreAllBcs

/-- **C123, `generate_internal_bcs`.** -/
theorem C123_generate (M : HexaData ℝ) (x0 y0 θ tol : ℝ) :
    generateInternalBcs (rotateR M x0 y0 θ) tol = (generateInternalBcs M tol).map fun r => (rotateR r.1 x0 y0 θ, r.2) :=
  rot_generate M x0 y0 _ _ (Real.cos_sq_add_sin_sq θ) tol

/-- **C123, `delete_internal_bcs`.** -/
theorem C123_delete (M : HexaData ℝ) (x0 y0 θ : ℝ) :
    deleteInternalBcs (rotateR M x0 y0 θ) = (rotateR (deleteInternalBcs M).1 x0 y0 θ, (deleteInternalBcs M).2) :=
  rot_delete M x0 y0 _ _

/-- **C123, `keep_elements`.** -/
theorem C123_keep (M : HexaData ℝ) (x0 y0 θ : ℝ) (elems : List Int) (external : Name) :
    keepElements (rotateR M x0 y0 θ) elems external = (keepElements M elems external).map (rotateR · x0 y0 θ) :=
  rot_keep M x0 y0 _ _ elems external

/-- **C123, `extrude`.** -/
theorem C123_extrude (M : HexaData ℝ) (x0 y0 θ : ℝ) (z : List ℝ) (bc1 bc2 : Option (List Name)) (internalBcs : Bool) :
    extrude (rotateR M x0 y0 θ) z bc1 bc2 internalBcs = (extrude M z bc1 bc2 internalBcs).map (rotateR · x0 y0 θ) :=
  rot_extrude M x0 y0 _ _ z bc1 bc2 internalBcs

namespace Samples

/-- Two boxes side by side, turned by the angle with cosine 3/5 and sine 4/5. -/
def turnedBoxes : HexaData ℚ × HexaData ℚ :=
  (rotate2d (box 2 2 0 nW nW nW nW) 0 0 (3 / 5) (4 / 5), rotate2d (box 1 2 2 nW nW nW nW) 0 0 (3 / 5) (4 / 5))

def mergedB (r : Py (HexaData ℚ × Nat)) (n : Nat) : Bool := match r with | .ok p => decide (p.1.elem.length = 6 ∧ p.2 = n) | .error _ => false

/-- They are merged along two faces, as the boxes that are not turned. -/
example : (3 / 5 : ℚ) ^ 2 + (4 / 5) ^ 2 = 1 ∧ mergedB (turnedBoxes.1.merge turnedBoxes.2 (1 / 100) true false) 2 = true ∧
    mergedB ((box 2 2 0 nW nW nW nW).merge (box 1 2 2 nW nW nW nW) (1 / 100) true false) 2 = true := by decide +kernel

end Samples

/-! ### C124 is false for edges on spheres -/

/-- A mesh of one element, whose first edge is on a sphere with centre (4, 4, 0). -/
noncomputable def Samples.sphereMesh : HexaData ℝ :=
  { (HexaData.new .little 3 1 ⟨2, 2, 2, true⟩ ⟨3, 3, 0, 0, 0⟩ 1 : HexaData ℝ) with elem := [Samples.sphereElem 5] }

/-- **C124 is false.** Turning the mesh by 180 degrees moves the ends of the edge but not the centre of the sphere; the middle of the
edge should be moved from (4, 4, 5) to (-4, -4, 5), but is somewhere else. -/
theorem C124_false : ∃ M : HexaData ℝ, 0 < M.elem.length ∧ OnSphere (M.el 0) 0 ⟨4, 4, 0⟩ 5 ⟨0, 4, 3⟩ ⟨8, 4, 3⟩ ∧
    edgeMid Real.sqrt (M.el 0) 0 = .ok (⟨4, 4, 5⟩, M.el 0) ∧
    (edgeFrom ((rotateR M 0 0 Real.pi).el 0) 0 = ⟨0, -4, 3⟩ ∧ edgeTo ((rotateR M 0 0 Real.pi).el 0) 0 = ⟨-8, -4, 3⟩) ∧
    ((rotateR M 0 0 Real.pi).el 0).cpt 0 = ⟨4, 4, 0⟩ ∧
    ∀ el, edgeMid Real.sqrt ((rotateR M 0 0 Real.pi).el 0) 0 ≠ .ok (⟨-4, -4, 5⟩, el) := by
  have hl : 0 < Samples.sphereMesh.elem.length := by simp [Samples.sphereMesh]
  have h0 : Samples.sphereMesh.el 0 = Samples.sphereElem 5 := rfl
  have hon := Samples.sphereElem_on 5
  have hr : (rotateR Samples.sphereMesh 0 0 Real.pi).el 0 = rotateElem (-1) 0 (Samples.sphereElem 5) := by
    rw [rotate_el _ _ _ _ 0 hl, h0, Real.cos_pi, Real.sin_pi]
  have hft := rot_from (-1) 0 (Samples.sphereElem 5) 0
  have hcpt : (rotateElem (-1) 0 (Samples.sphereElem 5)).cpt 0 = ⟨4, 4, 0⟩ := by
    simp [Elem.cpt, rotateElem, Samples.sphereElem]
  refine ⟨Samples.sphereMesh, hl, by rw [h0]; exact hon, ?_, ?_, by rw [hr]; exact hcpt, ?_⟩
  · rw [h0, edgeMid_sphere _ 0 hon.edge hon.typ]
    have hs : Real.sqrt 9 = 3 := by rw [show (9 : ℝ) = 3 ^ 2 by norm_num]; exact Real.sqrt_sq (by norm_num)
    rw [← hon.ends.1, ← hon.ends.2]
    have : (Samples.sphereElem 5).curv 0 4 = 5 ∧ (Samples.sphereElem 5).cpt 0 = ⟨4, 4, 0⟩ := by simp [Samples.sphereElem, Elem.cpt]
    rw [this.1, this.2]
    unfold sphereMid
    norm_num [hs]
  · rw [hr, hft.1, hft.2, ← hon.ends.1, ← hon.ends.2]
    constructor <;> norm_num [turned]
  · intro el h
    rw [hr, edgeMid_sphere (rotateElem (-1) 0 (Samples.sphereElem 5)) 0 hon.edge hon.typ, hft.1, hft.2, ← hon.ends.1, ← hon.ends.2, hcpt] at h
    have h5 : (rotateElem (-1) 0 (Samples.sphereElem 5)).curv 0 4 = 5 := by simp [rotateElem, Samples.sphereElem]
    rw [h5] at h
    have h1 := congrArg V3.z (congrArg Prod.fst (Except.ok.inj h))
    unfold sphereMid turned at h1
    norm_num at h1
    have hp : 0 < Real.sqrt 137 := Real.sqrt_pos.mpr (by norm_num)
    rw [div_eq_iff hp.ne'] at h1
    have hq := Real.mul_self_sqrt (show (0 : ℝ) ≤ 137 by norm_num)
    nlinarith

example : HasEdge (Samples.arcElem : Elem ℚ) 0 ∧ (Samples.arcElem : Elem ℚ).ccurv 0 = ['C'] := by unfold HasEdge; decide

/-- The middle of the arc, (3, -1), turned by 90 degrees. -/
example : (edgeMid Samples.rootQ (rotateElem 0 1 Samples.arcElem) 0).toOption.map Prod.fst = some ⟨1, 3, 0⟩ := by decide +kernel

end Pymech
