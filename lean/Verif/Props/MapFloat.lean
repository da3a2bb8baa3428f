import Verif.Mesh.FloatMap
import Verif.Props.EdgeFloat
import Verif.Props.ExtrudeFloat
import Verif.Props.Map2D

/-!
# C146: `map2D` in double precision
-/

set_option autoImplicit false

namespace Pymech

open Spec Flt

/-- `edge_mid` in double precision reads and writes only the curvature of its own edge. -/
theorem edgeMidF_local (L : Libm) : MidLocal (edgeMidF L) := by
  intro el e h
  have hs : ∀ c : Nat → Nat → F64, c e = el.curv e → (fun e' => if e' = e then el.curv e else c e') = c := by
    intro c hc; funext e'; split_ifs with h
    · rw [h, hc]
    · rfl
  have he : ∀ c : Nat → Nat → F64, HasEdge { el with curv := c } e := fun _ => h
  have hcp : ∀ c : Nat → Nat → F64, c e = el.curv e → Elem.cpt { el with curv := c } e = el.cpt e := by
    intro c hc; unfold Elem.cpt; simp only [hc]
  by_cases hm : el.ccurv e = ['m']
  · refine ⟨el.cpt e, el.curv e, fun _ => rfl, fun c hc => ?_⟩
    rw [edgeMidF_eq L _ e (he c), hs c hc, if_pos hm, hcp c hc]
  by_cases h0 : el.ccurv e = []
  · refine ⟨⟨((edgeFrom el e).x + (edgeTo el e).x) / 2, ((edgeFrom el e).y + (edgeTo el e).y) / 2, ((edgeFrom el e).z + (edgeTo el e).z) / 2⟩,
      el.curv e, fun _ => rfl, fun c hc => ?_⟩
    rw [edgeMidF_eq L _ e (he c), hs c hc, if_neg hm, if_pos h0]
    rfl
  by_cases hC : el.ccurv e = ['C']
  · refine ⟨arcMidF L (el.curv e 0) (edgeFrom el e) (edgeTo el e),
      (el.setCpt e (arcMidF L (el.curv e 0) (edgeFrom el e) (edgeTo el e))).curv e, fun h => absurd hC h, fun c hc => ?_⟩
    rw [edgeMidF_eq L _ e (he c), if_neg hm, if_neg h0, if_pos hC]
    have e1 : edgeFrom { el with curv := c } e = edgeFrom el e := rfl
    have e2 : edgeTo { el with curv := c } e = edgeTo el e := rfl
    simp only [e1, e2, hc]
    congr 2
    unfold Elem.setCpt
    simp only [if_true]
    congr 1
    funext e' q
    by_cases h : e' = e
    · subst h; simp only [if_true, hc]
    · simp only [if_neg h]
  by_cases hS : el.ccurv e = ['s']
  · refine ⟨sphereMidF L (el.curv e 4) (el.cpt e) (edgeFrom el e) (edgeTo el e), el.curv e, fun _ => rfl, fun c hc => ?_⟩
    rw [edgeMidF_eq L _ e (he c), hs c hc, if_neg hm, if_neg h0, if_neg hC, if_pos hS, hcp c hc]
    simp only [hc]
    rfl
  · refine ⟨el.cpt e, el.curv e, fun _ => rfl, fun c hc => ?_⟩
    rw [edgeMidF_eq L _ e (he c), hs c hc, if_neg hm, if_neg h0, if_neg hC, if_neg hS, hcp c hc]

namespace Spec

/-- A 2D mesh as `map2D` takes it: elements with four corners, with boundary conditions if these matter. -/
structure MapArgsF (curvature bcurv : Bool) (M : HexaData F64) : Prop where
  wf : WFF M
  ndim : M.ndim = 2
  shape : ∀ el ∈ M.elem, 2 ≤ el.pos.n ∧ el.pos.lz = 1 ∧ el.pos.ly = 2 ∧ el.pos.lx = 2
  rows : curvature = false → bcurv = true → 0 < M.nbc

end Spec

/-- Vertices of the image are the images of the vertices. -/
theorem image_faceCoord {mid : Elem F64 → Nat → Py (V3 F64 × Elem F64)} {T : F64 → F64 → F64 × F64} {curvature bcurv : Bool} {el el' : Elem F64}
    (h : ImageBy mid T curvature bcurv el el') (hs : el.pos.lz = 1 ∧ el.pos.ly = 2 ∧ el.pos.lx = 2) (f : Nat) (a b : Bool) :
    faceCoord el' f a b 0 = (T (faceCoord el f a b 0) (faceCoord el f a b 1)).1 ∧
    faceCoord el' f a b 1 = (T (faceCoord el f a b 0) (faceCoord el f a b 1)).2 ∧ faceCoord el' f a b 2 = faceCoord el f a b 2 := by
  obtain ⟨s1, s2, s3⟩ := hs
  obtain ⟨-, t1, t2, t3⟩ := h.shape
  have key : ∀ p q r : Bool, corner el' p q r 0 = (T (corner el p q r 0) (corner el p q r 1)).1 ∧
      corner el' p q r 1 = (T (corner el p q r 0) (corner el p q r 1)).2 ∧ corner el' p q r 2 = corner el p q r 2 := by
    intro p q r
    have hz : (if r then 1 - 1 else 0) = 0 := by cases r <;> rfl
    have hp : (if p then 2 - 1 else 0) < 2 := by cases p <;> decide
    have hq : (if q then 2 - 1 else 0) < 2 := by cases q <;> decide
    have hv := h.vertex _ hq _ hp
    unfold corner
    rw [t1, t2, t3, s1, s2, s3, hz, ← hv, h.depth]
    exact ⟨rfl, rfl, rfl⟩
  unfold faceCoord
  split <;> exact key _ _ _

/-- The ends of an edge in the order of `edge_mid`, or the other one, are the corners of the face with the same number. -/
theorem ends_faceCoord (el : Elem F64) (hs : el.pos.lz = 1 ∧ el.pos.ly = 2 ∧ el.pos.lx = 2) (e : Nat) (he : e < 4) :
    (edgeFrom el e = ⟨faceCoord el e false false 0, faceCoord el e false false 1, faceCoord el e false false 2⟩ ∧
      edgeTo el e = ⟨faceCoord el e true false 0, faceCoord el e true false 1, faceCoord el e true false 2⟩) ∨
    (edgeFrom el e = ⟨faceCoord el e true false 0, faceCoord el e true false 1, faceCoord el e true false 2⟩ ∧
      edgeTo el e = ⟨faceCoord el e false false 0, faceCoord el e false false 1, faceCoord el e false false 2⟩) := by
  obtain ⟨s1, s2, s3⟩ := hs
  have : e = 0 ∨ e = 1 ∨ e = 2 ∨ e = 3 := by omega
  rcases this with rfl | rfl | rfl | rfl <;>
    simp [edgeFrom, edgeTo, point, edgeVertex, faceCoord, corner, s2, s3]

/-- The midpoint of a straight edge, by the corners of the face with the same number. -/
theorem straight_midF (L : Libm) (el : Elem F64) (hs : el.pos.lz = 1 ∧ el.pos.ly = 2 ∧ el.pos.lx = 2) (e : Nat) (he : e < 4) (h0 : el.ccurv e = []) :
    edgeMidF L el e = .ok (⟨(faceCoord el e false false 0 + faceCoord el e true false 0) / 2,
      (faceCoord el e false false 1 + faceCoord el e true false 1) / 2, (faceCoord el e false false 2 + faceCoord el e true false 2) / 2⟩, el) := by
  rw [edgeMidF_eq L el e ⟨by omega, by omega, by omega, by omega, fun h => by omega⟩, if_neg (by rw [h0]; decide), if_pos h0]
  rcases ends_faceCoord el hs e he with ⟨h1, h2⟩ | ⟨h1, h2⟩
  · rw [h1, h2]
  · rw [h1, h2]
    simp only [addF_comm (faceCoord el e true false _)]

/-- **C146.** In double precision `map2D` maps each vertex of each element with the given function and leaves the conditions alone; the edges it is
asked to curve, and no others, get the image of their midpoint. If linked faces have the same corners bit by bit, then they still do, the mesh passes
`check_connectivity` with any tolerance that is not negative, whatever the transformation is, and straight edges of linked faces which are curved
on both sides get the same midpoint, bit by bit. -/
theorem C146 (L : Libm) (T : F64 → F64 → F64 × F64) (curvature bcurv : Bool) (M : HexaData F64) (A : MapArgsF curvature bcurv M)
    (hl : LinkedF M (SameCorners M)) :
    ∃ I R, map2DF L T curvature bcurv M = .ok (I, R) ∧ R = { M with elem := R.elem } ∧ R.elem.length = M.elem.length ∧
      (∀ i < M.elem.length, ImageBy (edgeMidF L) T curvature bcurv (M.el i) (R.el i)) ∧ WFF R ∧ LinkedF R (SameCorners R) ∧
      (∀ x y : Face, x.1 < M.elem.length → y.1 < M.elem.length → SameCorners M x y → SameCorners R x y) ∧
      (∀ x y : Face, x.1 < M.elem.length → y.1 < M.elem.length → x.2 < 4 → y.2 < 4 → SameCorners M x y →
        (M.el x.1).ccurv x.2 = [] → (M.el y.1).ccurv y.2 = [] → Requested curvature bcurv (M.el x.1) x.2 →
        Requested curvature bcurv (M.el y.1) y.2 →
        (R.el x.1).curv x.2 0 = (R.el y.1).curv y.2 0 ∧ (R.el x.1).curv x.2 1 = (R.el y.1).curv y.2 1) ∧
      ∀ L', LibmBasic L' → ∀ tol, NotNeg tol → R.checkConnectivityF L' tol = .ok true := by
  have size : ∀ el ∈ M.elem, 2 ≤ el.pos.n ∧ 1 ≤ el.pos.lz ∧ 2 ≤ el.pos.ly ∧ 2 ≤ el.pos.lx := by
    intro el hel
    obtain ⟨a, b, c, d⟩ := A.shape el hel
    omega
  have hok : ∀ el ∈ M.elem, ∃ p, mapElemBy (edgeMidF L) T curvature bcurv el = .ok p ∧ ImageBy (edgeMidF L) T curvature bcurv el p.2 := by
    intro el hel
    obtain ⟨a, b, h, h', -⟩ := mapElemBy_ok (edgeMidF_local L) T curvature bcurv el (size el hel)
      (fun x y => by rw [A.wf.rows el hel]; exact A.rows x y)
    exact ⟨(a, b), h, h'⟩
  obtain ⟨r, h1, h2, h3⟩ := mapM_ok' M.elem (mapElemBy (edgeMidF L) T curvature bcurv) (fun el hel => (hok el hel).imp fun _ h => h.1)
  set R : HexaData F64 := { M with elem := r.map Prod.snd } with hR
  have len : R.elem.length = M.elem.length := by simp [hR, h2]
  have img : ∀ i < M.elem.length, ImageBy (edgeMidF L) T curvature bcurv (M.el i) (R.el i) := by
    intro i hi
    have hi' : M.elem[i]? = some (M.el i) := by rw [List.getElem?_eq_getElem hi, ← HexaData.el_eq_getElem _ _ hi]
    obtain ⟨y, hy1, hy2⟩ := h3 i _ hi'
    obtain ⟨p, hp1, hp2⟩ := hok (M.el i) (M.el_mem i hi)
    have : R.el i = p.2 := by
      rw [hp1] at hy2
      rw [hR]
      unfold HexaData.el
      rw [List.getD_eq_getElem?_getD, List.getElem?_map, hy1, ← Except.ok.inj hy2]
      rfl
    rw [this]
    exact hp2
  have shp : ∀ i < M.elem.length, (M.el i).pos.lz = 1 ∧ (M.el i).pos.ly = 2 ∧ (M.el i).pos.lx = 2 := fun i hi => (A.shape _ (M.el_mem i hi)).2
  have bc : ∀ i < M.elem.length, ∀ b f, R.bc i b f = M.bc i b f := by
    intro i hi b f
    unfold HexaData.bc
    rw [(img i hi).frame]
  have same : ∀ x y : Face, x.1 < M.elem.length → y.1 < M.elem.length → SameCorners M x y → SameCorners R x y := by
    intro x y hx hy h a b d hd
    obtain ⟨x0, x1, x2⟩ := image_faceCoord (img _ hx) (shp _ hx) x.2 a b
    obtain ⟨y0, y1, y2⟩ := image_faceCoord (img _ hy) (shp _ hy) y.2 a b
    have e0 := h a b 0 (by omega)
    have e1 := h a b 1 (by omega)
    have e2 := h a b 2 (by omega)
    have : d = 0 ∨ d = 1 ∨ d = 2 := by omega
    rcases this with rfl | rfl | rfl
    · rw [x0, y0, e0, e1]
    · rw [x1, y1, e0, e1]
    · rw [x2, y2, e2]
  have hlR : LinkedF R (SameCorners R) := by
    intro b hb x hx hx2 ht
    rw [len] at hx
    rw [bc _ hx] at ht
    obtain ⟨y, y1, y2, y3, y4, y5, y6⟩ := hl b hb x hx hx2 ht
    refine ⟨y, by rw [len]; exact y1, y2, ?_⟩
    rw [bc _ hx, bc _ y1]
    exact ⟨y3, y4, y5, fun hE => same x y hx y1 (y6 hE)⟩
  have hwR : WFF R := by
    refine ⟨by rw [len]; exact A.wf.nel, ?_, A.wf.dim, ?_⟩
    all_goals
      intro el hel
      obtain ⟨i, hi, rfl⟩ := List.getElem_of_mem hel
      rw [← R.el_eq_getElem i hi]
      rw [len] at hi
      have hI := img i hi
    · rw [hI.frame]
      exact A.wf.rows (M.el i) (M.el_mem i hi)
    · obtain ⟨-, t1, t2, t3⟩ := hI.shape
      rw [t1, t2, t3]
      exact A.wf.grid _ (M.el_mem i hi)
  refine ⟨{ M with elem := r.map Prod.fst }, R, ?_, rfl, len, img, hwR, hlR, same, ?_, fun L' hL' tol ht => C135 L' hL' R hwR tol ht hlR⟩
  · unfold map2DF map2DBy; rw [h1]; rfl
  · intro x y hx hy hx4 hy4 hs hcx hcy hrx hry
    obtain ⟨-, m, el1, m1, m2, -⟩ := (img _ hx).curved _ hrx
    obtain ⟨-, n, el2, n1, n2, -⟩ := (img _ hy).curved _ hry
    rw [straight_midF L _ (shp _ hx) _ hx4 hcx] at m1
    rw [straight_midF L _ (shp _ hy) _ hy4 hcy] at n1
    have e0 := hs false false 0 (by omega)
    have e1 := hs false false 1 (by omega)
    have e2 := hs true false 0 (by omega)
    have e3 := hs true false 1 (by omega)
    rw [← (Prod.mk.inj (Except.ok.inj m1)).1] at m2
    rw [← (Prod.mk.inj (Except.ok.inj n1)).1] at n2
    simp only [e0, e1, e2, e3] at m2
    rw [← n2] at m2
    exact Prod.mk.inj m2

/-- Elements of `gen_box` have three coordinates and straight edges. -/
theorem genBoxF_plain (native : Endian) (nx ny : Nat) (xmin xmax ymin ymax : F64) (var : Var) (o1 o2 o3 o4 : Option (List Name))
    (A : BoxArgsF nx ny xmin xmax ymin ymax var o1 o2 o3 o4) (M : HexaData F64)
    (h : genBox native nx ny xmin xmax ymin ymax var o1 o2 o3 o4 true = .ok M) :
    ∀ el ∈ M.elem, el.pos.n = 3 ∧ ∀ e, el.ccurv e = [] := by
  obtain ⟨M', h1, h2, h3, h4⟩ := genBox_any (native := native) (internal := true) A.nx A.ny (range_pos A.x) (range_pos A.y) A.l1 A.l2 A.l3 A.l4
  obtain rfl : M = M' := by rw [h] at h1; exact Except.ok.inj h1
  intro el hel
  obtain ⟨e, he, rfl⟩ := List.getElem_of_mem hel
  rw [← M.el_eq_getElem e he]
  obtain ⟨i, hi, j, hj, rfl⟩ := elnum_cases (h3 ▸ he)
  rw [h4 i hi j hj]
  exact ⟨rfl, fun _ => rfl⟩

/-- **C146, boxes.** A box of `gen_box` mapped with any function passes `check_connectivity` with any tolerance that is not negative, also after
extruding it to any z values. If all edges are curved, then both elements of an inner edge have the same midpoint. -/
theorem C146_box (L : Libm) (T : F64 → F64 → F64 × F64) (curvature bcurv : Bool) (native : Endian) (nx ny : Nat) (xmin xmax ymin ymax : F64) (var : Var)
    (o1 o2 o3 o4 : Option (List Name)) (A : BoxArgsF nx ny xmin xmax ymin ymax var o1 o2 o3 o4) (hS : ∀ b < boxNbc var, SidesOk o1 o2 o3 o4 b)
    (hb : curvature = false → bcurv = true → 0 < boxNbc var) (hvar : 2 ≤ var.pos)
    (z : List F64) (hz : 2 ≤ z.length) (hsz : nx * ny * (z.length - 1) ≤ 2 ^ 52) (p1 p2 : Option (List Name))
    (l1 : ∀ l, p1 = some l → boxNbc var ≤ l.length) (l2 : ∀ l, p2 = some l → boxNbc var ≤ l.length)
    (hp : ¬ OneSided (endList (boxNbc var) p1) (endList (boxNbc var) p2)) (hE : ∀ b < boxNbc var, sideBC p1 b ≠ nE ∧ sideBC p2 b ≠ nE) :
    ∃ M I R X : HexaData F64, genBox native nx ny xmin xmax ymin ymax var o1 o2 o3 o4 true = .ok M ∧
      map2DF L T curvature bcurv M = .ok (I, R) ∧ extrudeF R z p1 p2 true = .ok X ∧ R.elem.length = nx * ny ∧
      X.elem.length = nx * ny * (z.length - 1) ∧
      (curvature = true → ∀ b < boxNbc var, ∀ x : Face, x.1 < nx * ny → x.2 < 4 → (R.bc x.1 b x.2).typ = nE →
        ∃ y : Face, y.1 < nx * ny ∧ y.2 < 4 ∧ PointsToF (R.bc x.1 b x.2) y ∧
          (R.el x.1).curv x.2 0 = (R.el y.1).curv y.2 0 ∧ (R.el x.1).curv x.2 1 = (R.el y.1).curv y.2 1) ∧
      ∀ L', LibmBasic L' → ∀ tol, NotNeg tol → R.checkConnectivityF L' tol = .ok true ∧ X.checkConnectivityF L' tol = .ok true := by
  have hsz' : nx * ny ≤ 2 ^ 52 := le_trans (Nat.le_mul_of_pos_right _ (by omega)) hsz
  obtain ⟨M, h1, h2, h3, h4, h5, h6, h7, h8, h9, h10⟩ := genBoxF_extrudable native nx ny xmin xmax ymin ymax var o1 o2 o3 o4 A hS hsz'
  have plain := genBoxF_plain native nx ny xmin xmax ymin ymax var o1 o2 o3 o4 A M h1
  obtain ⟨M', g1, -, g3⟩ := genBoxF_linked native nx ny xmin xmax ymin ymax var o1 o2 o3 o4 A hS
  obtain rfl : M = M' := by rw [h1] at g1; exact Except.ok.inj g1
  have AM : MapArgsF curvature bcurv M := ⟨h2, h3, fun el hel => by
    obtain ⟨a, b, c⟩ := h8 el hel
    exact ⟨by rw [(plain el hel).1]; norm_num, c, b, a⟩, by rw [h6]; exact hb⟩
  obtain ⟨I, R, r1, r2, r3, r4, r5, r6, r7, r8, r9⟩ := C146 L T curvature bcurv M AM g3
  have len : M.elem.length = nx * ny := by rw [← h2.nel, h7]
  have bc : ∀ i < M.elem.length, ∀ b f, R.bc i b f = M.bc i b f := by
    intro i hi b f
    unfold HexaData.bc
    rw [(r4 i hi).frame]
  have dim : R.ndim = M.ndim := by rw [r2]
  have nbc : R.nbc = M.nbc := by rw [r2]
  have el_of : ∀ el ∈ R.elem, ∃ i < M.elem.length, el = R.el i := by
    intro el hel
    obtain ⟨i, hi, rfl⟩ := List.getElem_of_mem hel
    exact ⟨i, r3 ▸ hi, (R.el_eq_getElem i hi).symm⟩
  have whole : LinksWhole R := by
    intro el hel b hb f hf
    obtain ⟨i, hi, rfl⟩ := el_of el hel
    rw [(r4 i hi).frame]
    exact h9 _ (M.el_mem i hi) b (nbc ▸ hb) f (dim ▸ hf)
  have valid : Valid R.vals (SameCorners R) := by
    intro b hb x hx hx2 hlk
    change IsLink (R.vals.bc x.1 b x.2) at hlk
    rw [vals_length, r3] at hx
    have hbM : b < M.vals.nbc := by change b < M.nbc; rw [← nbc]; exact hb
    have hx2M : x.2 < 2 * M.vals.ndim := by change x.2 < 2 * M.ndim; rw [← dim]; exact hx2
    have e : ∀ w : Face, w.1 < M.elem.length → R.vals.bc w.1 b w.2 = M.vals.bc w.1 b w.2 := by
      intro w hw
      rw [vals_bc, vals_bc, bc _ hw]
    rw [e x hx] at hlk
    obtain ⟨y, y1, y2, y3, y4, y5, y6⟩ := h10 b hbM x (by rw [vals_length]; exact hx) hx2M hlk
    rw [vals_length] at y1
    refine ⟨y, by rw [vals_length, r3]; exact y1, by change y.2 < 2 * R.ndim; rw [dim]; exact y2, ?_, ?_, ?_, ?_⟩
    · change PointsTo (R.vals.bc x.1 b x.2) y
      rw [e x hx]; exact y3
    · change (R.vals.bc y.1 b y.2).typ = (R.vals.bc x.1 b x.2).typ
      rw [e x hx, e y y1]; exact y4
    · change PointsTo (R.vals.bc y.1 b y.2) x
      rw [e y y1]; exact y5
    · intro h
      change (R.vals.bc x.1 b x.2).typ = nE at h
      rw [e x hx] at h
      exact r7 x y hx y1 (y6 h)
  have nel : R.nel = nx * ny := by rw [r2]; exact h7
  obtain ⟨X, x1, -, -, -, x5, -, -, -, x9⟩ := C145 R z p1 p2
    ⟨r5, by rw [dim, h3], by rw [r2]; exact h4, by rw [r2]; change 2 ≤ M.var.pos; rw [h5]; exact hvar, fun el hel => by
        obtain ⟨i, hi, rfl⟩ := el_of el hel
        obtain ⟨-, t1, t2, t3⟩ := (r4 i hi).shape
        rw [t1, t2, t3]
        exact h8 _ (M.el_mem i hi), hz, by rw [nbc, h6]; exact l1, by rw [nbc, h6]; exact l2, by rw [nbc, h6]; exact hp, by rw [nel]; exact hsz⟩ whole
    (by rw [nbc, h6]; exact hE) valid
  refine ⟨M, I, R, X, h1, r1, x1, by rw [r3, len], by rw [x5, nel], ?_, fun L' hL' tol ht => ⟨r9 L' hL' tol ht, x9 L' hL' tol ht⟩⟩
  intro hc b hb x hx hx4 ht
  rw [← len] at hx
  rw [bc _ hx] at ht ⊢
  obtain ⟨y, y1, y2, y3, y4, y5, y6⟩ := g3 b (h6 ▸ hb) x hx (by rw [h3]; omega) (Or.inl ht)
  have hy4 : y.2 < 4 := by
    obtain ⟨y', -, q2, q3, -⟩ := h10 b (by change b < M.nbc; rw [h6]; exact hb) x (by rw [vals_length]; exact hx)
      (by change x.2 < 2 * M.ndim; rw [h3]; omega) (by change IsLink (M.vals.bc x.1 b x.2); rw [vals_bc]; exact Or.inl ht)
    have q3' : PointsTo (M.vals.bc x.1 b x.2) y' := q3
    rw [vals_bc] at q3'
    have e1 := y3.2.2.2
    rw [q3'.2] at e1
    change y'.2 < 2 * M.ndim at q2
    rw [h3] at q2
    omega
  refine ⟨y, len ▸ y1, hy4, y3, ?_⟩
  exact r8 x y hx y1 hx4 hy4 (y6 ht) ((plain _ (M.el_mem _ hx)).2 _) ((plain _ (M.el_mem _ y1)).2 _) ⟨hx4, Or.inl hc⟩ ⟨hy4, Or.inl hc⟩

namespace Samples

/-- Three by two elements of a box with sides that are not representable exactly, sheared by a function that also swaps the axes and uses rounded
products; all edges curved, two layers, the second one flat. -/
example : ∃ M I R X : HexaData F64,
    genBox .little 3 2 f0 tenth one oneNext ⟨2, 2, 1, 1, 0⟩ none none (some [['W'], ['t']]) (some [['v'], ['f']]) true = .ok M ∧
    map2DF libm (fun x y => (y * y + x, x * tenth)) true false M = .ok (I, R) ∧
    extrudeF R [f0, tenth, tenth] (some [['W'], ['t']]) (some [['O'], ['I']]) true = .ok X ∧
    R.checkConnectivityF libm 0 = .ok true ∧ X.checkConnectivityF libm 0 = .ok true := by
  have two : ∀ b < boxNbc ⟨2, 2, 1, 1, 0⟩, b = 0 ∨ b = 1 := by
    intro b hb
    have : boxNbc ⟨2, 2, 1, 1, 0⟩ = 2 := rfl
    omega
  obtain ⟨M, I, R, X, h1, h2, h3, -, -, -, h4⟩ := C146_box libm (fun x y => (y * y + x, x * tenth)) true false .little 3 2 f0 tenth one oneNext
    ⟨2, 2, 1, 1, 0⟩ none none (some [['W'], ['t']]) (some [['v'], ['f']])
    ⟨by norm_num, by norm_num, by norm_num, rangeTenth, rangeNext, (by simp), (by simp), (by rintro l ⟨⟩; decide), (by rintro l ⟨⟩; decide)⟩
    (by intro b hb; rcases two b hb with rfl | rfl <;> exact ⟨by decide, by decide, by decide⟩) (by intro h; cases h) (by decide)
    [f0, tenth, tenth] (by decide) (by simp) (some [['W'], ['t']]) (some [['O'], ['I']]) (by rintro l ⟨⟩; decide) (by rintro l ⟨⟩; decide)
    (by rw [← oneSidedP_iff]; decide) (by intro b hb; rcases two b hb with rfl | rfl <;> exact ⟨by decide, by decide⟩)
  have h5 := h4 libm sqrt_basic 0 (fun _ => by rw [zeroF_val])
  exact ⟨M, I, R, X, h1, h2, h3, h5⟩

end Samples

end Pymech
