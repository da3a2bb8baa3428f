import Verif.Mesh.FloatCircle
import Verif.Props.Box
import Verif.Props.ExtrudeRefine
import Verif.Props.FloatCheck
import Verif.Props.RotateFloat

/-!
# C148: the blocks of `gen_circle` in double precision
-/

set_option autoImplicit false

namespace Pymech

open Spec Flt

theorem blockBc_inner {F : Type} (ni nj i j : Nat) (n0 n1 n2 n3 : Name) (f : Nat) (r : BC F)
    (h : ¬ ((f = 0 ∧ j = 0) ∨ (f = 2 ∧ j = nj - 1) ∨ (f = 1 ∧ i = ni - 1) ∨ (f = 3 ∧ i = 0))) : circleBc ni nj i j n0 n1 n2 n3 f r = r := by
  unfold circleBc
  rw [if_neg (fun h' => h (Or.inl h')), if_neg (fun h' => h (Or.inr (Or.inl h'))), if_neg (fun h' => h (Or.inr (Or.inr (Or.inl h')))),
    if_neg (fun h' => h (Or.inr (Or.inr (Or.inr h'))))]

theorem blockBc_outer {F : Type} (ni nj i j : Nat) (n0 n1 n2 n3 : Name) (f : Nat) (r : BC F)
    (h : (f = 0 ∧ j = 0) ∨ (f = 2 ∧ j = nj - 1) ∨ (f = 1 ∧ i = ni - 1) ∨ (f = 3 ∧ i = 0)) :
    ∃ n, n ∈ [n0, n1, n2, n3] ∧ (circleBc ni nj i j n0 n1 n2 n3 f r).typ = u3 n := by
  unfold circleBc
  split_ifs with h1 h2 h3 h4
  · exact ⟨n0, by simp, rfl⟩
  · exact ⟨n2, by simp, rfl⟩
  · exact ⟨n1, by simp, rfl⟩
  · exact ⟨n3, by simp, rfl⟩
  · exact absurd h (by tauto)

/-- A block of `nx` by `ny` elements whose corners are given by their position in the block, with the links of `build_connectivity`. -/
theorem block_linked (M : HexaData F64) (nx ny : Nat) (hd : M.ndim = 2) (hlen : M.elem.length = nx * ny) (hsz : nx * ny ≤ 2 ^ 53) (ib : Bool)
    (N : Nat → Name × Name × Name × Name) (hN : ∀ b < M.nbc, ∀ n ∈ [(N b).1, (N b).2.1, (N b).2.2.1, (N b).2.2.2], n ≠ nE ∧ n ≠ nP)
    (hbc : ∀ i < nx, ∀ j < ny, ∀ b < M.nbc, ∀ f, M.bc (i + nx * j) b f =
      circleBc nx ny i j (N b).1 (N b).2.1 (N b).2.2.1 (N b).2.2.2 f (if ib then boxInner nx ny i j f BC.zero else BC.zero))
    (P : Nat → Nat → Nat → F64)
    (cor : ∀ i < nx, ∀ j < ny, ∀ sx sy sz : Bool, ∀ d < 3, Spec.corner (M.el (i + nx * j)) sx sy sz d =
      P (i + if sx then 1 else 0) (j + if sy then 1 else 0) d) : LinkedF M (SameCorners M) := by
  have same02 : ∀ i < nx, ∀ j, j + 1 < ny → SameCorners M (i + nx * (j + 1), 0) (i + nx * j, 2) := by
    intro i hi j hj a b d hd
    simp only [faceCoord, cor i hi (j + 1) hj _ _ _ d hd, cor i hi j (by omega) _ _ _ d hd]
    simp
  have same13 : ∀ i, i + 1 < nx → ∀ j < ny, SameCorners M (i + nx * j, 1) (i + 1 + nx * j, 3) := by
    intro i hi j hj a b d hd
    simp only [faceCoord, cor i (by omega) j hj _ _ _ d hd, cor (i + 1) hi j hj _ _ _ d hd]
    simp
  have symm : ∀ x y, SameCorners M x y → SameCorners M y x := fun x y h a b d hd => (h a b d hd).symm
  have el : ∀ i < nx, ∀ j < ny, elnum i j nx + 1 ≤ 2 ^ 53 := fun i hi j hj => elnum_le nx ny i j _ hi hj hsz
  intro b hb
  rw [hlen, hd]
  rintro ⟨e, f⟩ he hf hl
  dsimp only at he hf hl ⊢
  obtain ⟨i, hi, j, hj, rfl⟩ := elnum_cases he
  -- boundary faces are not linked
  have hin : ¬ ((f = 0 ∧ j = 0) ∨ (f = 2 ∧ j = ny - 1) ∨ (f = 1 ∧ i = nx - 1) ∨ (f = 3 ∧ i = 0)) := by
    intro h
    rw [hbc i hi j hj b hb] at hl
    obtain ⟨n, n1, n2⟩ := blockBc_outer nx ny i j (N b).1 (N b).2.1 (N b).2.2.1 (N b).2.2.2 f
      (if ib then boxInner nx ny i j f BC.zero else BC.zero : BC F64) h
    rw [n2] at hl
    obtain ⟨m1, m2⟩ := hN b hb n n1
    rcases hl with h | h
    · exact m1 ((u3_single n 'E').1 h)
    · exact m2 ((u3_single n 'P').1 h)
  cases ib with
  | false =>
    rw [hbc i hi j hj b hb, blockBc_inner _ _ _ _ _ _ _ _ _ _ hin] at hl
    rcases hl with h | h <;> (change ([] : Name) = _ at h; exact absurd h (by decide))
  | true =>
  have hb' : ∀ i < nx, ∀ j < ny, ∀ f, ¬ ((f = 0 ∧ j = 0) ∨ (f = 2 ∧ j = ny - 1) ∨ (f = 1 ∧ i = nx - 1) ∨ (f = 3 ∧ i = 0)) →
      M.bc (i + nx * j) b f = boxInner nx ny i j f BC.zero := by
    intro i hi j hj f h
    rw [hbc i hi j hj b hb, blockBc_inner _ _ _ _ _ _ _ _ _ _ h]
    rfl
  have in0 : ∀ i < nx, ∀ j, j + 1 < ny → M.bc (i + nx * (j + 1)) b 0 = wrLink nE (elnum i (j + 1) nx + 1) 1 (elnum i j nx + 1) 3 BC.zero := by
    intro i hi j hj; rw [hb' i hi (j + 1) hj 0 (by omega)]; simp [boxInner]
  have in2 : ∀ i < nx, ∀ j, j + 1 < ny → M.bc (i + nx * j) b 2 = wrLink nE (elnum i j nx + 1) 3 (elnum i (j + 1) nx + 1) 1 BC.zero := by
    intro i hi j hj; rw [hb' i hi j (by omega) 2 (by omega)]
    simp [boxInner, show j ≠ ny - 1 by omega]
  have in1 : ∀ i, i + 1 < nx → ∀ j < ny, M.bc (i + nx * j) b 1 = wrLink nE (elnum i j nx + 1) 2 (elnum (i + 1) j nx + 1) 4 BC.zero := by
    intro i hi j hj; rw [hb' i (by omega) j hj 1 (by omega)]
    simp [boxInner, show i ≠ nx - 1 by omega]
  have in3 : ∀ i, i + 1 < nx → ∀ j < ny, M.bc (i + 1 + nx * j) b 3 = wrLink nE (elnum (i + 1) j nx + 1) 4 (elnum i j nx + 1) 2 BC.zero := by
    intro i hi j hj; rw [hb' (i + 1) hi j hj 3 (by omega)]; simp [boxInner]
  have hf' : f = 0 ∨ f = 1 ∨ f = 2 ∨ f = 3 := by omega
  rcases hf' with rfl | rfl | rfl | rfl
  · obtain ⟨j, rfl⟩ : ∃ k, j = k + 1 := ⟨j - 1, by omega⟩
    rw [in0 i hi j hj]
    refine ⟨(i + nx * j, 2), elnum_lt hi (by omega), by omega, ?_⟩
    dsimp only
    rw [in2 i hi j hj]
    exact ⟨wrLinkF_points _ _ _ _ 2 (el i hi j (by omega)) (by norm_num) _, rfl,
      wrLinkF_points _ _ _ _ 0 (el i hi (j + 1) hj) (by norm_num) _, fun _ => same02 i hi j hj⟩
  · have hi1 : i + 1 < nx := by omega
    rw [in1 i hi1 j hj]
    refine ⟨(i + 1 + nx * j, 3), elnum_lt hi1 hj, by omega, ?_⟩
    dsimp only
    rw [in3 i hi1 j hj]
    exact ⟨wrLinkF_points _ _ _ _ 3 (el (i + 1) hi1 j hj) (by norm_num) _, rfl,
      wrLinkF_points _ _ _ _ 1 (el i hi j hj) (by norm_num) _, fun _ => same13 i hi1 j hj⟩
  · have hj1 : j + 1 < ny := by omega
    rw [in2 i hi j hj1]
    refine ⟨(i + nx * (j + 1), 0), elnum_lt hi hj1, by omega, ?_⟩
    dsimp only
    rw [in0 i hi j hj1]
    exact ⟨wrLinkF_points _ _ _ _ 0 (el i hi (j + 1) hj1) (by norm_num) _, rfl,
      wrLinkF_points _ _ _ _ 2 (el i hi j hj) (by norm_num) _, fun _ => symm _ _ (same02 i hi j hj1)⟩
  · obtain ⟨i, rfl⟩ : ∃ k, i = k + 1 := ⟨i - 1, by omega⟩
    rw [in3 i hi j hj]
    refine ⟨(i + nx * j, 1), elnum_lt (by omega) hj, by omega, ?_⟩
    dsimp only
    rw [in1 i hi j hj]
    exact ⟨wrLinkF_points _ _ _ _ 1 (el i (by omega) j hj) (by norm_num) _, rfl,
      wrLinkF_points _ _ _ _ 3 (el (i + 1) hi j hj) (by norm_num) _, fun _ => symm _ _ (same13 i hi j hj)⟩

/-- The links of a block: every inner face points to its neighbour. -/
def BlockLinks (M : HexaData F64) (nx ny : Nat) : Prop := ∀ b < M.nbc,
  (∀ i, i + 1 < nx → ∀ j < ny, (M.bc (i + nx * j) b 1).typ = nE ∧ PointsToF (M.bc (i + nx * j) b 1) (i + 1 + nx * j, 3)) ∧
  ∀ i < nx, ∀ j, j + 1 < ny → (M.bc (i + nx * j) b 2).typ = nE ∧ PointsToF (M.bc (i + nx * j) b 2) (i + nx * (j + 1), 0)

theorem block_complete (M : HexaData F64) (nx ny : Nat) (hsz : nx * ny ≤ 2 ^ 53) (N : Nat → Name × Name × Name × Name)
    (hbc : ∀ i < nx, ∀ j < ny, ∀ b < M.nbc, ∀ f, M.bc (i + nx * j) b f =
      circleBc nx ny i j (N b).1 (N b).2.1 (N b).2.2.1 (N b).2.2.2 f (boxInner nx ny i j f BC.zero)) : BlockLinks M nx ny := by
  have el : ∀ i < nx, ∀ j < ny, elnum i j nx + 1 ≤ 2 ^ 53 := fun i hi j hj => elnum_le nx ny i j _ hi hj hsz
  intro b hb
  refine ⟨fun i hi j hj => ?_, fun i hi j hj => ?_⟩
  · have e : M.bc (i + nx * j) b 1 = wrLink nE (elnum i j nx + 1) 2 (elnum (i + 1) j nx + 1) 4 BC.zero := by
      rw [hbc i (by omega) j hj b hb, blockBc_inner _ _ _ _ _ _ _ _ _ _ (by omega)]
      simp [boxInner, show i ≠ nx - 1 by omega]
    rw [e]
    exact ⟨rfl, wrLinkF_points _ _ _ _ 3 (el (i + 1) hi j hj) (by norm_num) _⟩
  · have e : M.bc (i + nx * j) b 2 = wrLink nE (elnum i j nx + 1) 3 (elnum i (j + 1) nx + 1) 1 BC.zero := by
      rw [hbc i hi j (by omega) b hb, blockBc_inner _ _ _ _ _ _ _ _ _ _ (by omega)]
      simp [boxInner, show j ≠ ny - 1 by omega]
    rw [e]
    exact ⟨rfl, wrLinkF_points _ _ _ _ 0 (el i hi (j + 1) hj) (by norm_num) _⟩

/-- The point of the O mesh at position `i` along the radius on ray `j`. -/
def oPointF (m : MathFns F64) (cf bl : F64 → Py F64) (r c : F64) (ns no i j : Nat) : Py (F64 × F64) := do
  let eta ← bl ((i : F64) / (no : F64))
  oCornerF m cf r c ns j eta

theorem oPosF_points (m : MathFns F64) (cf bl : F64 → Py F64) (r c : F64) (ns no i j : Nat) (old a : Arr F64)
    (h : oPosF m cf bl r c ns no i j old = .ok a) :
    a.n = old.n ∧ a.lz = old.lz ∧ a.ly = old.ly ∧ a.lx = old.lx ∧ (∀ kz ky kx, a.dat 2 kz ky kx = old.dat 2 kz ky kx) ∧
    ∀ ky < 2, ∀ kx < 2, oPointF m cf bl r c ns no (i + kx) (j + ky) = .ok (a.dat 0 0 ky kx, a.dat 1 0 ky kx) := by
  unfold oPosF at h
  cases e0 : bl ((i : F64) / (no : F64)) with
  | error e => rw [e0] at h; cases h
  | ok eta0 =>
  cases e1 : bl (((i + 1 : Nat) : F64) / (no : F64)) with
  | error e => rw [e0, e1] at h; cases h
  | ok eta1 =>
  rw [e0, e1] at h
  simp only [bind, Except.bind] at h
  cases q00 : oCornerF m cf r c ns j eta0 with
  | error e => rw [q00] at h; cases h
  | ok p00 =>
  cases q01 : oCornerF m cf r c ns j eta1 with
  | error e => rw [q00, q01] at h; cases h
  | ok p01 =>
  cases q10 : oCornerF m cf r c ns (j + 1) eta0 with
  | error e => rw [q00, q01, q10] at h; cases h
  | ok p10 =>
  cases q11 : oCornerF m cf r c ns (j + 1) eta1 with
  | error e => rw [q00, q01, q10, q11] at h; cases h
  | ok p11 =>
  rw [q00, q01, q10, q11] at h
  obtain rfl := Except.ok.inj h
  refine ⟨rfl, rfl, rfl, rfl, fun kz ky kx => by simp, ?_⟩
  intro ky hky kx hkx
  have h1 : ky = 0 ∨ ky = 1 := by omega
  have h2 : kx = 0 ∨ kx = 1 := by omega
  unfold oPointF
  rcases h1 with rfl | rfl <;> rcases h2 with rfl | rfl
  · simp only [Nat.add_zero, e0, bind, Except.bind, q00]; rfl
  · simp only [Nat.add_zero, e1, bind, Except.bind, q01]; rfl
  · simp only [Nat.add_zero, e0, bind, Except.bind, q10]; rfl
  · simp only [e1, bind, Except.bind, q11]; rfl

/-- What the names of the conditions must not be: a mark of a link. -/
def NotLinks (bc : List Name) : Prop := ∀ n ∈ bc, n ≠ nE ∧ n ≠ nP

theorem newF_el (native : Endian) (ndim nel : Nat) (lr1 : Lr1) (var : Var) (nbc i : Nat) (hi : i < nel) :
    (HexaData.new native ndim nel lr1 var nbc : HexaData F64).el i = Elem.new var.pres var.temp var.scal lr1.x lr1.y lr1.z nbc := by
  rw [HexaData.el_eq_getElem _ _ (by simpa [HexaData.new] using hi)]
  simp [HexaData.new]

theorem con_notLink (nbc b : Nat) : (List.replicate nbc nCon).getD b [] ≠ nE ∧ (List.replicate nbc nCon).getD b [] ≠ nP := by
  rw [List.getD_eq_getElem?_getD, List.getElem?_replicate]
  split_ifs <;> exact ⟨by decide, by decide⟩

/-- The elements of the square. -/
theorem circleSquareF_el (native : Endian) (m : MathFns F64) (r s : F64) (ns : Nat) (var : Var) (nbc : Nat) (ib : Bool) (k : Nat) (hk : k < ns * ns) :
    (circleSquareF native m r s ns var nbc ib).el k = { (Elem.new var.pres var.temp var.scal 2 2 1 nbc : Elem F64) with
      pos := squarePosF (s * r * m.sqrt2) ns (k % ns) (k / ns) (Elem.new var.pres var.temp var.scal 2 2 1 nbc : Elem F64).pos
      bcs := circleBcs ib nbc ns ns (k % ns) (k / ns) (List.replicate nbc nCon) (List.replicate nbc nCon) (List.replicate nbc nCon)
        (List.replicate nbc nCon) (Elem.new var.pres var.temp var.scal 2 2 1 nbc : Elem F64).bcs } := by
  rw [HexaData.el_eq_getElem _ _ (by simpa [circleSquareF, HexaData.new] using hk)]
  simp [circleSquareF, HexaData.new]

/-- **C148, the square.** -/
theorem C148_square (native : Endian) (m : MathFns F64) (r s : F64) (ns : Nat) (var : Var) (nbc : Nat) (ib : Bool) (hsz : ns * ns ≤ 2 ^ 53) :
    WFF (circleSquareF native m r s ns var nbc ib) ∧
    LinkedF (circleSquareF native m r s ns var nbc ib) (SameCorners (circleSquareF native m r s ns var nbc ib)) ∧
    (ib = true → BlockLinks (circleSquareF native m r s ns var nbc ib) ns ns) ∧
    ∀ L, LibmBasic L → ∀ tol, NotNeg tol → (circleSquareF native m r s ns var nbc ib).checkConnectivityF L tol = .ok true := by
  set M := circleSquareF native m r s ns var nbc ib with hM
  have hlen : M.elem.length = ns * ns := by simp [hM, circleSquareF, HexaData.new]
  have hel : ∀ k < ns * ns, _ := circleSquareF_el native m r s ns var nbc ib
  rw [← hM] at hel
  have hw : WFF M := by
    refine ⟨hlen.symm, ?_, Or.inl rfl, ?_⟩
    · intro el hm
      obtain ⟨k, hk, rfl⟩ := List.mem_iff_getElem.1 hm
      rw [← M.el_eq_getElem k hk, hel k (hlen ▸ hk)]
      rfl
    · intro el hm
      obtain ⟨k, hk, rfl⟩ := List.mem_iff_getElem.1 hm
      rw [← M.el_eq_getElem k hk, hel k (hlen ▸ hk)]
      exact ⟨le_refl 2, le_refl 2, le_refl 1⟩
  have hrec : ∀ i < ns, ∀ j < ns, ∀ b < M.nbc, ∀ f, M.bc (i + ns * j) b f =
      circleBc ns ns i j nCon nCon nCon nCon f (if ib then boxInner ns ns i j f BC.zero else BC.zero) := by
    intro i hi j hj b hb f
    have hb' : b < nbc := hb
    have hg : (List.replicate nbc nCon).getD b [] = nCon := by
      rw [List.getD_eq_getElem?_getD, List.getElem?_replicate, if_pos hb']; rfl
    unfold HexaData.bc
    rw [hel _ (elnum_lt hi hj), Nat.add_mul_mod_self_left, Nat.mod_eq_of_lt hi, Nat.add_mul_div_left _ _ (by omega), Nat.div_eq_of_lt hi, Nat.zero_add]
    simp only [circleBcs, if_pos hb', hg]
    rfl
  have hl : LinkedF M (SameCorners M) := by
    refine block_linked M ns ns rfl hlen hsz ib (fun _ => (nCon, nCon, nCon, nCon)) ?_ hrec
      (fun x y d => if d = 0 then squareCoordF (s * r * m.sqrt2) ns x else if d = 1 then squareCoordF (s * r * m.sqrt2) ns y else 0) ?_
    · intro b _ n hn
      simp only [List.mem_cons, List.not_mem_nil, or_false, or_self] at hn
      subst hn
      exact ⟨by decide, by decide⟩
    · intro i hi j hj sx sy sz d hd
      unfold Spec.corner
      rw [hel _ (elnum_lt hi hj), Nat.add_mul_mod_self_left, Nat.mod_eq_of_lt hi, Nat.add_mul_div_left _ _ (by omega), Nat.div_eq_of_lt hi, Nat.zero_add]
      have hd' : d = 0 ∨ d = 1 ∨ d = 2 := by omega
      rcases hd' with rfl | rfl | rfl <;> cases sx <;> cases sy <;> cases sz <;> simp [squarePosF, Elem.new, Arr.zeros]
  refine ⟨hw, hl, fun h => ?_, fun L hL tol ht => C135 L hL M hw tol ht hl⟩
  subst h
  exact block_complete M ns ns hsz (fun _ => (nCon, nCon, nCon, nCon)) hrec

/-- The elements of the quarter O, and the points at their corners. -/
theorem circleOF_el {native : Endian} {m : MathFns F64} {cf bl : F64 → Py F64} {r s : F64} {ns no : Nat} {var : Var} {bc : List Name} {ib : Bool}
    {O : HexaData F64} (h : circleOF native m cf bl r s ns no var bc ib = .ok O) :
    O.nel = no * ns ∧ O.elem.length = no * ns ∧ O.ndim = 2 ∧ O.nbc = bc.length ∧
    ∀ k < no * ns, ∃ a, oPosF m cf bl r (s * r * m.sqrt2) ns no (k % no) (k / no) (Arr.zeros 3 2 2 1) = .ok a ∧ (O.el k).pos = a ∧
      (O.el k).rows = bc.length ∧
      (O.el k).bcs = circleBcs ib bc.length no ns (k % no) (k / no) (List.replicate bc.length nCon) bc (List.replicate bc.length nCon)
        (List.replicate bc.length nCon) (fun _ _ => BC.zero) ∧
      (∀ e, (O.el k).ccurv e = if e = 1 ∧ k % no = no - 1 then ['C'] else []) ∧
      (∀ e q, (O.el k).curv e q = if e = 1 ∧ q = 0 ∧ k % no = no - 1 then r else 0) := by
  unfold circleOF at h
  simp only [bind, Except.bind] at h
  split at h
  · cases h
  rename_i pos hp
  obtain rfl := Except.ok.inj h
  obtain ⟨p1, p2⟩ := mapM_inv _ _ _ hp
  refine ⟨rfl, by simp, rfl, rfl, ?_⟩
  intro k hk
  obtain ⟨a, a1, a2⟩ := p2 k k (by rw [List.getElem?_range hk])
  rw [newF_el _ _ _ _ _ _ _ hk] at a2
  refine ⟨a, a2, ?_⟩
  rw [HexaData.el_eq_getElem _ _ (by simpa using hk)]
  simp only [List.getElem_map, List.getElem_range, newF_el _ _ _ _ _ _ _ hk]
  refine ⟨?_, rfl, rfl, fun _ => rfl, fun _ _ => rfl⟩
  rw [List.getD_eq_getElem?_getD, a1]
  rfl

/-- **C148, the quarter O.** -/
theorem C148_o (native : Endian) (m : MathFns F64) (cf bl : F64 → Py F64) (r s : F64) (ns no : Nat) (var : Var) (bc : List Name) (ib : Bool)
    (hbc : NotLinks bc) (hsz : no * ns ≤ 2 ^ 53) (O : HexaData F64) (h : circleOF native m cf bl r s ns no var bc ib = .ok O) :
    WFF O ∧ LinkedF O (SameCorners O) ∧ (ib = true → BlockLinks O no ns) ∧
    (0 < no → ∀ j < ns, (∀ b < bc.length, (O.bc (no - 1 + no * j) b 1).typ = u3 (bc.getD b [])) ∧
      (O.el (no - 1 + no * j)).ccurv 1 = ['C'] ∧ (O.el (no - 1 + no * j)).curv 1 0 = r) ∧
    (∀ L, LibmBasic L → ∀ tol, NotNeg tol → O.checkConnectivityF L tol = .ok true) ∧
    ∀ c t x0 y0 : F64, ∀ L, LibmBasic L → ∀ tol, NotNeg tol → (rotate2d O x0 y0 c t).checkConnectivityF L tol = .ok true := by
  obtain ⟨h1, hlen, h3, h4, hel⟩ := circleOF_el h
  have hw : WFF O := by
    refine ⟨h1.trans hlen.symm, ?_, Or.inl h3, ?_⟩
    · intro el hm
      obtain ⟨k, hk, rfl⟩ := List.mem_iff_getElem.1 hm
      obtain ⟨a, _, _, a3, _⟩ := hel k (hlen ▸ hk)
      rw [← O.el_eq_getElem k hk, a3, h4]
    · intro el hm
      obtain ⟨k, hk, rfl⟩ := List.mem_iff_getElem.1 hm
      obtain ⟨a, a1, a2, _⟩ := hel k (hlen ▸ hk)
      obtain ⟨_, q2, q3, q4, _⟩ := oPosF_points _ _ _ _ _ _ _ _ _ _ _ a1
      rw [← O.el_eq_getElem k hk, a2, q2, q3, q4]
      exact ⟨le_refl 2, le_refl 2, le_refl 1⟩
  have hrec : ∀ i < no, ∀ j < ns, ∀ b < O.nbc, ∀ f, O.bc (i + no * j) b f =
      circleBc no ns i j nCon (bc.getD b []) nCon nCon f (if ib then boxInner no ns i j f BC.zero else BC.zero) := by
    intro i hi j hj b hb f
    rw [h4] at hb
    have hg : (List.replicate bc.length nCon).getD b [] = nCon := by
      rw [List.getD_eq_getElem?_getD, List.getElem?_replicate, if_pos hb]; rfl
    obtain ⟨a, _, _, _, a4, _⟩ := hel _ (elnum_lt hi hj)
    unfold HexaData.bc
    rw [a4, Nat.add_mul_mod_self_left, Nat.mod_eq_of_lt hi, Nat.add_mul_div_left _ _ (by omega), Nat.div_eq_of_lt hi, Nat.zero_add]
    simp only [circleBcs, if_pos hb, hg]
  have hl : LinkedF O (SameCorners O) := by
    refine block_linked O no ns h3 hlen hsz ib (fun b => (nCon, bc.getD b [], nCon, nCon)) ?_ hrec
      (fun x y d => match oPointF m cf bl r (s * r * m.sqrt2) ns no x y with
        | .ok p => if d = 0 then p.1 else if d = 1 then p.2 else 0
        | .error _ => 0) ?_
    · intro b hb n hn
      rw [h4] at hb
      simp only [List.mem_cons, List.not_mem_nil, or_false] at hn
      have hcon : nCon ≠ nE ∧ nCon ≠ nP := ⟨by decide, by decide⟩
      rcases hn with rfl | rfl | rfl | rfl
      · exact hcon
      · refine hbc _ ?_
        rw [List.getD_eq_getElem?_getD, List.getElem?_eq_getElem hb]
        exact List.getElem_mem hb
      · exact hcon
      · exact hcon
    · intro i hi j hj sx sy sz d hd
      obtain ⟨a, a1, a2, _⟩ := hel _ (elnum_lt hi hj)
      rw [Nat.add_mul_mod_self_left, Nat.mod_eq_of_lt hi, Nat.add_mul_div_left _ _ (by omega), Nat.div_eq_of_lt hi, Nat.zero_add] at a1
      obtain ⟨_, q2, q3, q4, q5, q6⟩ := oPosF_points _ _ _ _ _ _ _ _ _ _ _ a1
      have w := q6 (if sy then 1 else 0) (by split_ifs <;> omega) (if sx then 1 else 0) (by split_ifs <;> omega)
      unfold Spec.corner
      rw [a2, w, q2, q3, q4]
      have hd' : d = 0 ∨ d = 1 ∨ d = 2 := by omega
      rcases hd' with rfl | rfl | rfl
      · cases sx <;> cases sy <;> cases sz <;> simp [Arr.zeros]
      · cases sx <;> cases sy <;> cases sz <;> simp [Arr.zeros]
      · rw [q5]; simp [Arr.zeros]
  refine ⟨hw, hl, ?_, ?_, fun L hL tol ht => C135 L hL O hw tol ht hl, fun c t x0 y0 => (C137_links O hw hl c t x0 y0).2⟩
  · intro h
    subst h
    exact block_complete O no ns hsz (fun b => (nCon, bc.getD b [], nCon, nCon)) hrec
  · intro hno j hj
    obtain ⟨a, _, _, _, _, a5, a6⟩ := hel _ (elnum_lt (i := no - 1) (by omega) hj)
    have hm : (no - 1 + no * j) % no = no - 1 := by rw [Nat.add_mul_mod_self_left, Nat.mod_eq_of_lt (by omega)]
    refine ⟨fun b hb => ?_, by rw [a5, hm]; simp, by rw [a6, hm]; simp⟩
    rw [hrec (no - 1) (by omega) j hj b (by rw [h4]; exact hb)]
    simp [circleBc]

/-- A library for examples: rational functions close to the circular functions. -/
def roughMath : MathFns F64 where
  sin x := x
  cos x := 1 - x * x / 2
  atan x := x * (1 - x * x / 5)
  log x := x - 1
  pow x _ := .ok x
  pi := 355 / 113
  sqrt2 := 99 / 70

/-- Two rings of three elements with the curvature `x ** 2` and equal spacing: links between neighbours are written and checked without
tolerance, although the corners are rounded. -/
example : ∃ O : HexaData F64, circleOF .little roughMath (fun x => .ok (x * x)) .ok 1 (1 / 2) 3 2 ⟨2, 2, 0, 0, 0⟩ [['W']] true = .ok O ∧
    O.elem.length = 6 ∧ (O.bc 0 0 1).typ = nE ∧ O.checkConnectivityF libm 0 = .ok true := by
  have hs : (circleOF .little roughMath (fun x => .ok (x * x)) .ok 1 (1 / 2) 3 2 ⟨2, 2, 0, 0, 0⟩ [['W']] true).toOption.isSome = true := by
    decide +kernel
  cases hO : circleOF .little roughMath (fun x => .ok (x * x)) .ok 1 (1 / 2) 3 2 ⟨2, 2, 0, 0, 0⟩ [['W']] true with
  | error e => rw [hO] at hs; cases hs
  | ok O =>
    obtain ⟨_, _, _, _, h3, _⟩ := C148_o _ _ _ _ _ _ _ _ _ _ _ (by intro n hn; simp only [List.mem_singleton] at hn; subst hn; decide) (by norm_num) O hO
    obtain ⟨_, hlen, _, _, hel⟩ := circleOF_el hO
    refine ⟨O, rfl, hlen, ?_, h3 libm sqrt_basic 0 (fun _ => by rw [zeroF_val])⟩
    obtain ⟨_, _, _, _, a4, _⟩ := hel 0 (by norm_num)
    unfold HexaData.bc
    rw [a4]
    rfl

/-- The square of three by three elements in the same circle. -/
example : (circleSquareF .little roughMath 1 (1 / 2) 3 ⟨2, 2, 0, 0, 0⟩ 1 true).checkConnectivityF libm 0 = .ok true :=
  (C148_square _ _ _ _ _ _ _ _ (by norm_num)).2.2.2 libm sqrt_basic 0 (fun _ => by rw [zeroF_val])

end Pymech
