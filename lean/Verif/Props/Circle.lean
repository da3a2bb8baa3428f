import Verif.Props.Merge
import Verif.Props.Map2D
import Verif.Props.Refine

/-!
# C63, C64 `gen_circle`
-/

set_option linter.unusedSectionVars false

namespace Pymech

open Spec

variable {F : Type} [Field F] [LinearOrder F] [IsStrictOrderedRing F] [FloorRing F]

/-- What `merge` does to anything that does not depend on the conditions. -/
theorem merge_map {A B M : HexaData F} {tol : F} {ie ia : Bool} {n : Nat} (h : A.merge B tol ie ia = .ok (M, n)) {α : Type} (f : Elem F → α)
    (hf : ∀ (el : Elem F) (g : Nat → Nat → BC F), f { el with bcs := g } = f el) : M.elem.map f = A.elem.map f ++ B.elem.map f := by
  obtain ⟨-, h1, h2, h3⟩ := merge_concat A B tol ie ia M n h
  apply List.ext_getElem (by simp [h1])
  intro i hi hi'
  simp only [List.length_map] at hi
  rw [List.getElem_map, ← HexaData.el_eq_getElem M i hi, List.getElem_append]
  split
  · next h => 
    simp only [List.length_map] at h
    rw [List.getElem_map, ← HexaData.el_eq_getElem A i h, h2 i h, hf]
  · next h =>
    simp only [List.length_map, not_lt] at h
    obtain ⟨k, rfl⟩ : ∃ k, i = A.elem.length + k := ⟨i - A.elem.length, by omega⟩
    rw [h3 k (by omega), hf, List.getElem_map]
    simp only [List.length_map, Nat.add_sub_cancel_left]
    rw [← HexaData.el_eq_getElem B k (by omega)]

theorem sum_range_mul (n k : Nat) (f : Nat → Nat) :
    ((List.range (n * k)).map f).sum = ((List.range k).map fun q => ((List.range n).map fun i => f (i + n * q)).sum).sum := by
  induction k with
  | zero => rfl
  | succ k ih =>
    rw [Nat.mul_succ, List.range_add, List.map_append, List.sum_append, ih, List.range_succ, List.map_append, List.sum_append]
    simp only [List.map_map, List.map_cons, List.map_nil, List.sum_cons, List.sum_nil, Nat.add_zero]
    congr 3
    funext i
    simp [Nat.add_comm]

theorem new_el (native : Endian) (ndim nel : Nat) (lr1 : Lr1) (var : Var) (nbc i : Nat) (hi : i < nel) :
    (HexaData.new native ndim nel lr1 var nbc : HexaData F).el i = Elem.new var.pres var.temp var.scal lr1.x lr1.y lr1.z nbc := by
  rw [HexaData.el_eq_getElem _ _ (by simpa [HexaData.new] using hi)]
  simp [HexaData.new]

/-- The quarter O. -/
theorem circleO_eq {native : Endian} {m : MathFns F} {cf bl : F → Py F} {r s : F} {ns no : Nat} {var : Var} {bc : List Name} {ib : Bool} {o : HexaData F}
    (h : circleO native m cf bl r s ns no var bc ib = .ok o) :
    o.nel = no * ns ∧ o.elem.length = no * ns ∧ o.ndim = 2 ∧ o.lr1 = ⟨2, 2, 1, true⟩ ∧ o.nbc = bc.length ∧ o.ncurv = 0 ∧
      ∀ i < no * ns, (o.el i).ccurv = (fun e => if e = 1 ∧ i % no = no - 1 then ['C'] else []) ∧
        (o.el i).curv = (fun e q => if e = 1 ∧ q = 0 ∧ i % no = no - 1 then r else 0) ∧
        (o.el i).bcs = circleBcs ib bc.length no ns (i % no) (i / no) (List.replicate bc.length nCon) bc (List.replicate bc.length nCon)
          (List.replicate bc.length nCon) (Elem.new var.pres var.temp var.scal 2 2 1 bc.length : Elem F).bcs ∧
        (o.el i).rows = bc.length ∧
        oPos m cf bl r (s * r * m.sqrt2) ns no (i % no) (i / no) (Elem.new var.pres var.temp var.scal 2 2 1 bc.length : Elem F).pos = .ok (o.el i).pos := by
  unfold circleO at h
  simp only [bind, Except.bind] at h
  split at h
  · exact absurd h (by simp)
  next pos hpos =>
  obtain rfl := (Except.ok.inj h).symm
  refine ⟨rfl, by simp, rfl, rfl, rfl, rfl, fun i hi => ?_⟩
  have hel : ∀ (g : Nat → Elem F), ({ (HexaData.new native 2 (no * ns) ⟨2, 2, 1, true⟩ var bc.length : HexaData F) with
      elem := (List.range (no * ns)).map g } : HexaData F).el i = g i := by
    intro g
    rw [HexaData.el_eq_getElem _ _ (by simpa using hi)]
    simp
  rw [hel, new_el _ _ _ _ _ _ _ hi]
  have hp : oPos m cf bl r (s * r * m.sqrt2) ns no (i % no) (i / no) (Elem.new var.pres var.temp var.scal 2 2 1 bc.length : Elem F).pos =
      .ok (pos.getD i (Elem.new var.pres var.temp var.scal 2 2 1 bc.length : Elem F).pos) := by
    have hmm : ∀ (l : List Nat) (g : Nat → Py (Arr F)) (ps : List (Arr F)), l.mapM g = .ok ps →
        ps.length = l.length ∧ ∀ k (hk : k < l.length) d, g l[k] = .ok (ps.getD k d) := by
      intro l g
      induction l with
      | nil => intro ps hps; obtain rfl := (Except.ok.inj hps).symm; simp
      | cons a l ih =>
        intro ps hps
        rw [List.mapM_cons] at hps
        cases ha : g a with
        | error e => rw [ha] at hps; exact absurd hps (by simp [bind, Except.bind])
        | ok p =>
          cases hl : l.mapM g with
          | error e => rw [ha, hl] at hps; exact absurd hps (by simp [bind, Except.bind])
          | ok ps' =>
            rw [ha, hl] at hps
            obtain rfl := (Except.ok.inj hps).symm
            obtain ⟨i1, i2⟩ := ih ps' hl
            refine ⟨by simp [i1], fun k hk d => ?_⟩
            cases k with
            | zero => simpa using ha
            | succ k => simpa using i2 k (by simpa using hk) d
    have := (hmm _ _ _ hpos).2 i (by simpa using hi) (Elem.new var.pres var.temp var.scal 2 2 1 bc.length : Elem F).pos
    simp only [List.getElem_range, new_el _ _ _ _ _ _ _ hi] at this
    exact this
  refine ⟨?_, ?_, rfl, rfl, hp⟩
  · funext e; simp [Elem.new]
  · funext e q; simp [Elem.new]

/-- The quarter O, turned `q` times. -/
def quarter (m : MathFns F) (o : HexaData F) : Nat → HexaData F
  | 0 => o
  | q + 1 => rotate2d (quarter m o q) 0 0 (m.cos (1 / 2 * m.pi)) (m.sin (1 / 2 * m.pi))

/-- The steps of `gen_circle`. -/
theorem genCircle_eq {native : Endian} {m : MathFns F} {r s : F} {ns no : Nat} {cf bl : Option (F → Py F)} {var : Var} {bc : List Name} {ib : Bool}
    {M : HexaData F} (h : genCircle native m r s ns no cf bl var bc ib = .ok M) :
    ∃ (cf' bl' : F → Py F) (o M1 M2 M3 : HexaData F) (n1 n2 n3 n4 : Nat), (0 < ns → 0 < no) ∧ (ns = 0 → 0 < no → bc = []) ∧
      cf' = cf.getD (fun x => .ok (m.sin (1 / 2 * m.pi * x) ^ 2)) ∧ circleBl m cf' r s ns no bl = .ok bl' ∧
      circleO native m cf' bl' r s ns no var bc ib = .ok o ∧
      (circleSquare native m r s ns var bc.length ib).merge o (1 / 100) true (!ib) = .ok (M1, n1) ∧
      M1.merge (quarter m o 1) (1 / 100) true (!ib) = .ok (M2, n2) ∧
      M2.merge (quarter m o 2) (1 / 100) true (!ib) = .ok (M3, n3) ∧
      M3.merge (quarter m o 3) (1 / 100) true (!ib) = .ok (M, n4) := by
  unfold genCircle at h
  simp only [bind, Except.bind] at h
  split at h
  · exact absurd h (by simp)
  next bl' hbl =>
  split at h
  · exact absurd h (by simp)
  next hidx =>
  split at h
  · exact absurd h (by simp)
  next o ho =>
  split at h
  · exact absurd h (by simp)
  next p1 h1 =>
  split at h
  · exact absurd h (by simp)
  next p2 h2 =>
  split at h
  · exact absurd h (by simp)
  next p3 h3 =>
  split at h
  · exact absurd h (by simp)
  next p4 h4 =>
  obtain rfl := Except.ok.inj h
  refine ⟨_, bl', o, p1.1, p2.1, p3.1, p1.2, p2.2, p3.2, p4.2, ?_, ?_, rfl, hbl, ho, h1, h2, h3, h4⟩
  · omega
  · intro a b
    by_contra hc
    exact hidx (Or.inr ⟨a, b, List.length_pos_iff.2 hc⟩)

theorem curvedEdges_merge {A B M : HexaData F} {tol : F} {ie ia : Bool} {n : Nat} (h : A.merge B tol ie ia = .ok (M, n)) :
    curvedEdges M = curvedEdges A + curvedEdges B := by
  unfold curvedEdges
  rw [merge_map h (fun el => ((List.range 12).filter fun i => el.ccurv i ≠ []).length) (fun _ _ => rfl), List.sum_append]

theorem curvedEdges_rotate (M : HexaData F) (x y c s : F) : curvedEdges (rotate2d M x y c s) = curvedEdges M := by
  unfold curvedEdges rotate2d
  rw [List.map_map]
  rfl

theorem curvedEdges_range (M : HexaData F) :
    curvedEdges M = ((List.range M.elem.length).map fun i => ((List.range 12).filter fun e => (M.el i).ccurv e ≠ []).length).sum := by
  unfold curvedEdges
  congr 1
  apply List.ext_getElem (by simp)
  intro i hi hi'
  simp only [List.getElem_map, List.getElem_range]
  rw [HexaData.el_eq_getElem _ _ (by simpa using hi)]

theorem square_ccurv (native : Endian) (m : MathFns F) (r s : F) (ns : Nat) (var : Var) (nbc : Nat) (ib : Bool) :
    let sq := circleSquare native m r s ns var nbc ib
    sq.nel = ns * ns ∧ sq.elem.length = ns * ns ∧ sq.ndim = 2 ∧ sq.lr1 = ⟨2, 2, 1, true⟩ ∧ sq.nbc = nbc ∧ sq.ncurv = 0 ∧
      ∀ i < ns * ns, (sq.el i).ccurv = (fun _ => []) ∧ (sq.el i).rows = nbc ∧
        (sq.el i).bcs = circleBcs ib nbc ns ns (i % ns) (i / ns) (List.replicate nbc nCon) (List.replicate nbc nCon) (List.replicate nbc nCon)
          (List.replicate nbc nCon) (Elem.new var.pres var.temp var.scal 2 2 1 nbc : Elem F).bcs ∧
        (sq.el i).pos = squarePos (s * r * m.sqrt2) ns (i % ns) (i / ns) (Elem.new var.pres var.temp var.scal 2 2 1 nbc : Elem F).pos := by
  intro sq
  have hl : sq.elem.length = ns * ns := by simp [sq, circleSquare, HexaData.new]
  refine ⟨rfl, hl, rfl, rfl, rfl, rfl, fun i hi => ?_⟩
  rw [HexaData.el_eq_getElem _ _ (by rw [hl]; exact hi)]
  simp only [sq, circleSquare, List.getElem_mapIdx, HexaData.new, List.getElem_replicate]
  refine ⟨by funext e; simp [Elem.new], ?_, ?_, ?_⟩ <;> trivial

/-- One quarter has `ns` curved edges. -/
theorem circleO_curved {native : Endian} {m : MathFns F} {cf bl : F → Py F} {r s : F} {ns no : Nat} {var : Var} {bc : List Name} {ib : Bool} {o : HexaData F}
    (h : circleO native m cf bl r s ns no var bc ib = .ok o) (hn : 0 < ns → 0 < no) : curvedEdges o = ns := by
  obtain ⟨-, h1, -, -, -, -, h2⟩ := circleO_eq h
  rw [curvedEdges_range, h1]
  have hc : ∀ i ∈ List.range (no * ns), ((List.range 12).filter fun e => (o.el i).ccurv e ≠ []).length = if i % no = no - 1 then 1 else 0 := by
    intro i hi
    rw [(h2 i (by simpa using hi)).1]
    by_cases hm : i % no = no - 1
    · simp only [hm, and_true, if_true]; decide
    · simp only [hm, and_false, if_false]; decide
  rw [List.map_congr_left hc, sum_range_mul]
  rcases Nat.eq_zero_or_pos ns with rfl | hp
  · simp
  have hno := hn hp
  have hin : ∀ q ∈ List.range ns, ((List.range no).map fun i => if (i + no * q) % no = no - 1 then 1 else 0).sum = 1 := by
    intro q _
    have : ∀ i ∈ List.range no, (if (i + no * q) % no = no - 1 then 1 else 0) = if i = no - 1 then 1 else 0 := by
      intro i hi
      rw [Nat.add_mul_mod_self_left, Nat.mod_eq_of_lt (by simpa using hi)]
    rw [List.map_congr_left this]
    obtain ⟨k, rfl⟩ : ∃ k, no = k + 1 := ⟨no - 1, by omega⟩
    rw [List.range_succ, List.map_append, List.sum_append]
    have hz : ((List.range k).map fun i => if i = k + 1 - 1 then 1 else 0).sum = 0 := by
      rw [List.sum_eq_zero_iff]
      intro x hx
      obtain ⟨i, hi, rfl⟩ := List.mem_map.1 hx
      rw [if_neg (by simp at hi; omega)]
    rw [hz]
    simp
  rw [List.map_congr_left hin]
  simp

theorem rotate2d_len (M : HexaData F) (x y c s : F) : (rotate2d M x y c s).elem.length = M.elem.length := by simp [rotate2d]

theorem rotate2d_el (M : HexaData F) (x y c s : F) (i : Nat) (hi : i < M.elem.length) :
    (rotate2d M x y c s).el i = rotateElem c s (M.el i) := by
  rw [HexaData.el_eq_getElem _ i (by rw [rotate2d_len]; exact hi), HexaData.el_eq_getElem _ i hi]
  simp [rotate2d]

theorem rotate_arc (c s r : F) (el : Elem F) (k : Prop) [Decidable k] (h1 : el.ccurv = fun e => if e = 1 ∧ k then ['C'] else [])
    (h2 : el.curv = fun e q => if e = 1 ∧ q = 0 ∧ k then r else 0) :
    (rotateElem c s el).ccurv = (fun e => if e = 1 ∧ k then ['C'] else []) ∧ (rotateElem c s el).curv = fun e q => if e = 1 ∧ q = 0 ∧ k then r else 0 := by
  refine ⟨h1, ?_⟩
  rw [← h2]
  funext e q
  have : el.ccurv e ≠ ['m'] := by
    rw [h1]
    simp only
    split <;> decide
  simp only [rotateElem, this, and_false, if_false]

/-- The elements agree except for their conditions. -/
def SameButBcs (a b : Elem F) : Prop := ∃ g, a = { b with bcs := g }

theorem SameButBcs.trans {a b c : Elem F} (h : SameButBcs a b) (h' : SameButBcs b c) : SameButBcs a c := by
  obtain ⟨g, rfl⟩ := h
  obtain ⟨g', rfl⟩ := h'
  exact ⟨g, rfl⟩

theorem quarter_len (m : MathFns F) (o : HexaData F) (q : Nat) : (quarter m o q).elem.length = o.elem.length := by
  induction q with
  | zero => rfl
  | succ q ih => rw [quarter, rotate2d_len, ih]

theorem curvedEdges_quarter (m : MathFns F) (o : HexaData F) (q : Nat) : curvedEdges (quarter m o q) = curvedEdges o := by
  induction q with
  | zero => rfl
  | succ q ih => rw [quarter, curvedEdges_rotate, ih]

theorem quarter_ncurv (m : MathFns F) (o : HexaData F) (q : Nat) : (quarter m o q).ncurv = o.ncurv := by
  induction q with
  | zero => rfl
  | succ q ih => rw [quarter]; exact ih

theorem quarter_nel (m : MathFns F) (o : HexaData F) (q : Nat) : (quarter m o q).nel = o.nel := by
  induction q with
  | zero => rfl
  | succ q ih => rw [quarter]; exact ih

theorem merge_same {A B M : HexaData F} {tol : F} {ie ia : Bool} {n : Nat} (h : A.merge B tol ie ia = .ok (M, n)) :
    M.elem.length = A.elem.length + B.elem.length ∧ M.nel = A.nel + B.nel ∧ M.ndim = A.ndim ∧ M.nbc = A.nbc ∧
      (∀ e < A.elem.length, SameButBcs (M.el e) (A.el e)) ∧ (∀ e < B.elem.length, SameButBcs (M.el (A.elem.length + e)) (B.el e)) := by
  obtain ⟨h0, h1, h2, h3⟩ := merge_concat A B tol ie ia M n h
  exact ⟨h1, by rw [h0], by rw [h0], by rw [h0], fun e he => ⟨_, h2 e he⟩, fun e he => ⟨_, h3 e he⟩⟩

/-- Five meshes merged one after the other. -/
theorem merge_five {A M1 M2 M3 M : HexaData F} {B : Nat → HexaData F} {tol : F} {ie ia : Bool} {n1 n2 n3 n4 a b : Nat}
    (h1 : A.merge (B 0) tol ie ia = .ok (M1, n1)) (h2 : M1.merge (B 1) tol ie ia = .ok (M2, n2))
    (h3 : M2.merge (B 2) tol ie ia = .ok (M3, n3)) (h4 : M3.merge (B 3) tol ie ia = .ok (M, n4))
    (hA : A.elem.length = a) (hB : ∀ q, (B q).elem.length = b) (hA' : A.nel = a) (hB' : ∀ q, (B q).nel = b) :
    M.nel = a + 4 * b ∧ M.elem.length = a + 4 * b ∧ M.ndim = A.ndim ∧ M.nbc = A.nbc ∧
      (∀ i < a, SameButBcs (M.el i) (A.el i)) ∧ (∀ q < 4, ∀ k < b, SameButBcs (M.el (a + b * q + k)) ((B q).el k)) := by
  obtain ⟨a1, a2, a3, a4, a5, a6⟩ := merge_same h1
  obtain ⟨b1, b2, b3, b4, b5, b6⟩ := merge_same h2
  obtain ⟨c1, c2, c3, c4, c5, c6⟩ := merge_same h3
  obtain ⟨d1, d2, d3, d4, d5, d6⟩ := merge_same h4
  clear h1 h2 h3 h4
  rw [hB] at a1 a6 b1 b6 c1 c6 d1 d6
  rw [hB'] at a2 b2 c2 d2
  rw [hA] at a1 a5 a6
  rw [a1] at b1 b5 b6
  rw [b1] at c1 c5 c6
  rw [c1] at d1 d5 d6
  have w0 : ∀ i < a, i < a + b ∧ i < a + b + b ∧ i < a + b + b + b := fun i hi => by clear * - hi; omega
  have w1 : ∀ k < b, a + k < a + b ∧ a + k < a + b + b ∧ a + k < a + b + b + b := fun i hi => by clear * - hi; omega
  have w2 : ∀ k < b, a + b + k < a + b + b ∧ a + b + k < a + b + b + b := fun i hi => by clear * - hi; omega
  have w3 : ∀ k < b, a + b + b + k < a + b + b + b := fun i hi => by clear * - hi; omega
  refine ⟨by rw [d2, c2, b2, a2, hA']; clear * -; omega, by rw [d1]; clear * -; omega, by rw [d3, c3, b3, a3], by rw [d4, c4, b4, a4], ?_, ?_⟩
  · intro i hi
    obtain ⟨x, y, z⟩ := w0 i hi
    exact (d5 i z).trans ((c5 i y).trans ((b5 i x).trans (a5 i hi)))
  · intro q hq k hk
    rcases (by clear * - hq; omega : q = 0 ∨ q = 1 ∨ q = 2 ∨ q = 3) with rfl | rfl | rfl | rfl
    · rw [Nat.mul_zero, Nat.add_zero]
      obtain ⟨x, y, z⟩ := w1 k hk
      exact (d5 _ z).trans ((c5 _ y).trans ((b5 _ x).trans (a6 k hk)))
    · rw [Nat.mul_one]
      obtain ⟨x, y⟩ := w2 k hk
      exact (d5 _ y).trans ((c5 _ x).trans (b6 k hk))
    · rw [show a + b * 2 + k = a + b + b + k by clear * -; omega]
      exact (d5 _ (w3 k hk)).trans (c6 k hk)
    · rw [show a + b * 3 + k = a + b + b + b + k by clear * -; omega]
      exact d6 k hk

/-- The elements of the circle: the square and four quarters. -/
theorem genCircle_blocks {native : Endian} {m : MathFns F} {r s : F} {ns no : Nat} {cf bl : Option (F → Py F)} {var : Var} {bc : List Name} {ib : Bool}
    {M : HexaData F} (h : genCircle native m r s ns no cf bl var bc ib = .ok M) :
    ∃ (cf' bl' : F → Py F) (o : HexaData F), (0 < ns → 0 < no) ∧
      cf' = cf.getD (fun x => .ok (m.sin (1 / 2 * m.pi * x) ^ 2)) ∧ circleBl m cf' r s ns no bl = .ok bl' ∧
      circleO native m cf' bl' r s ns no var bc ib = .ok o ∧
      M.nel = ns * ns + 4 * (no * ns) ∧ M.elem.length = M.nel ∧ M.ndim = 2 ∧ M.nbc = bc.length ∧
      (∀ i < ns * ns, SameButBcs (M.el i) ((circleSquare native m r s ns var bc.length ib).el i)) ∧
      (∀ q < 4, ∀ k < no * ns, SameButBcs (M.el (ns * ns + no * ns * q + k)) ((quarter m o q).el k)) := by
  obtain ⟨cf', bl', o, M1, M2, M3, n1, n2, n3, n4, hpos, -, hcf, hbl, ho, h1, h2, h3, h4⟩ := genCircle_eq h
  obtain ⟨o1, o2, -⟩ := circleO_eq ho
  obtain ⟨s1, s2, s3, -, s5, -⟩ := square_ccurv native m r s ns var bc.length ib
  obtain ⟨e1, e2, e3, e4, e5, e6⟩ := merge_five (B := quarter m o) h1 h2 h3 h4 s2 (fun q => (quarter_len m o q).trans o2) s1
    (fun q => (quarter_nel m o q).trans o1)
  exact ⟨cf', bl', o, hpos, hcf, hbl, ho, e1, e2.trans e1.symm, e3.trans s3, e4.trans s5, e5, e6⟩

theorem quarter_arc (m : MathFns F) (o : HexaData F) (r : F) (k : Nat) (hk : k < o.elem.length) (p : Prop) [Decidable p]
    (h1 : (o.el k).ccurv = fun e => if e = 1 ∧ p then ['C'] else []) (h2 : (o.el k).curv = fun e q => if e = 1 ∧ q = 0 ∧ p then r else 0) (q : Nat) :
    (((quarter m o q).el k).ccurv = fun e => if e = 1 ∧ p then ['C'] else []) ∧ (((quarter m o q).el k).curv = fun e q => if e = 1 ∧ q = 0 ∧ p then r else 0) := by
  induction q with
  | zero => exact ⟨h1, h2⟩
  | succ q ih =>
    rw [quarter, rotate2d_el _ _ _ _ _ _ (by rw [quarter_len]; exact hk)]
    exact rotate_arc _ _ r _ p ih.1 ih.2

/-- **C63.** If `gen_circle` returns a mesh then it has `ns² + 4 ns no` elements (the square first, then the four quarters) and exactly
`4 ns` curved edges, which are arcs of radius `r`: edge 1 of the outermost elements of the quarters. -/
theorem C63 {native : Endian} {m : MathFns F} {r s : F} {ns no : Nat} {cf bl : Option (F → Py F)} {var : Var} {bc : List Name} {ib : Bool}
    {M : HexaData F} (h : genCircle native m r s ns no cf bl var bc ib = .ok M) :
    M.nel = ns * ns + 4 * (ns * no) ∧ M.elem.length = M.nel ∧ M.ndim = 2 ∧ M.nbc = bc.length ∧ curvedEdges M = 4 * ns ∧
      ∀ i < M.nel, ∀ e, ((M.el i).ccurv e ≠ [] ↔ e = 1 ∧ ns * ns ≤ i ∧ (i - ns * ns) % no = no - 1) ∧
        ((M.el i).ccurv e ≠ [] → (M.el i).ccurv e = ['C'] ∧ (M.el i).curv e 0 = r) := by
  obtain ⟨cf', bl', o, hpos, -, -, ho, e1, e2, e3, e4, e5, e6⟩ := genCircle_blocks h
  obtain ⟨-, o2, -, -, -, -, o6⟩ := circleO_eq ho
  obtain ⟨-, s2, -, -, -, -, s6⟩ := square_ccurv native m r s ns var bc.length ib
  refine ⟨by rw [e1, Nat.mul_comm no], e2, e3, e4, ?_, ?_⟩
  · obtain ⟨cf', bl', o, M1, M2, M3, n1, n2, n3, n4, hpos, -, -, -, ho, h1, h2, h3, h4⟩ := genCircle_eq h
    rw [curvedEdges_merge h4, curvedEdges_merge h3, curvedEdges_merge h2, curvedEdges_merge h1]
    simp only [curvedEdges_quarter, circleO_curved ho hpos]
    have : curvedEdges (circleSquare native m r s ns var bc.length ib) = 0 := by
      rw [curvedEdges_range, s2, List.sum_eq_zero_iff]
      intro x hx
      obtain ⟨i, hi, rfl⟩ := List.mem_map.1 hx
      rw [(s6 i (by simpa using hi)).1]
      simp
    omega
  · intro i hi e
    rcases Nat.lt_or_ge i (ns * ns) with hlt | hge
    · obtain ⟨g, hg⟩ := e5 i hlt
      have : (M.el i).ccurv e = [] := by rw [hg]; simp only; rw [(s6 i hlt).1]
      exact ⟨⟨fun h => absurd this h, fun h => absurd h.2.1 (by omega)⟩, fun h => absurd this h⟩
    · have hp : 0 < no * ns := by omega
      obtain ⟨q, k, hq, hk, rfl⟩ : ∃ q k, q < 4 ∧ k < no * ns ∧ i = ns * ns + no * ns * q + k := by
        refine ⟨(i - ns * ns) / (no * ns), (i - ns * ns) % (no * ns), ?_, Nat.mod_lt _ hp, ?_⟩
        · rw [Nat.div_lt_iff_lt_mul hp]; omega
        · have := Nat.div_add_mod (i - ns * ns) (no * ns); omega
      obtain ⟨g, hg⟩ := e6 q hq k hk
      obtain ⟨f1, f2⟩ := quarter_arc m o r k (by omega) (k % no = no - 1) (o6 k hk).1 (o6 k hk).2.1 q
      have hmod : (ns * ns + no * ns * q + k - ns * ns) % no = k % no := by
        rw [Nat.add_assoc, Nat.add_sub_cancel_left, Nat.mul_assoc, Nat.mul_add_mod]
      rw [hmod]
      have c1 : (M.el (ns * ns + no * ns * q + k)).ccurv e = if e = 1 ∧ k % no = no - 1 then ['C'] else [] := by
        rw [hg]; simp only; rw [f1]
      have c2 : (M.el (ns * ns + no * ns * q + k)).curv e 0 = if e = 1 ∧ k % no = no - 1 then r else 0 := by
        rw [hg]; simp only; rw [f2]; simp only [true_and]
      rw [c1, c2]
      by_cases hc : e = 1 ∧ k % no = no - 1
      · rw [if_pos hc, if_pos hc]
        exact ⟨⟨fun _ => ⟨hc.1, by omega, hc.2⟩, fun _ => by decide⟩, fun _ => ⟨rfl, rfl⟩⟩
      · rw [if_neg hc]
        exact ⟨⟨fun h => absurd rfl h, fun h => absurd ⟨h.1, h.2.2⟩ hc⟩, fun h => absurd rfl h⟩

/-! ### Conditions on the boundary -/

/-- The types of conditions of `M` are those of `A`, except for faces satisfying `T` that became internal. -/
def Glued (T : Nat → Nat → Prop) (A M : HexaData F) : Prop :=
  M.elem.length = A.elem.length ∧ ∀ i < A.elem.length, ∀ b f, (M.bc i b f).typ = (A.bc i b f).typ ∨ ((M.bc i b f).typ = nE ∧ T i f)

theorem Glued.refl (T : Nat → Nat → Prop) (A : HexaData F) : Glued T A A := ⟨rfl, fun _ _ _ _ => Or.inl rfl⟩

theorem Glued.trans {T : Nat → Nat → Prop} {A B C : HexaData F} (h : Glued T A B) (h' : Glued T B C) : Glued T A C := by
  refine ⟨h'.1.trans h.1, fun i hi b f => ?_⟩
  rcases h'.2 i (by rw [h.1]; exact hi) b f with h1 | h1
  · rcases h.2 i hi b f with h2 | h2
    · exact Or.inl (h1.trans h2)
    · exact Or.inr ⟨h1.trans h2.1, h2.2⟩
  · exact Or.inr h1

theorem Glued.connect {T : Nat → Nat → Prop} (M : HexaData F) (ibc e0 f0 e1 f1 : Nat) (h0 : T e0 f0) (h1 : T e1 f1) :
    Glued T M (M.connect ibc e0 f0 e1 f1) := by
  refine ⟨by simp [HexaData.connect], fun i hi b f => ?_⟩
  unfold HexaData.connect
  rw [HexaData.bc_modBC _ _ _ _ _ _ _ _ (by simpa using hi), HexaData.bc_modBC _ _ _ _ _ _ _ _ hi]
  by_cases c1 : i = e1 ∧ b = ibc ∧ f = f1
  · rw [if_pos c1]
    obtain ⟨rfl, rfl, rfl⟩ := c1
    exact Or.inr ⟨rfl, h1⟩
  · rw [if_neg c1]
    by_cases c0 : i = e0 ∧ b = ibc ∧ f = f0
    · rw [if_pos c0]
      obtain ⟨rfl, rfl, rfl⟩ := c0
      exact Or.inr ⟨rfl, h0⟩
    · rw [if_neg c0]
      exact Or.inl rfl

theorem Glued.connects {T : Nat → Nat → Prop} (l : List Nat) (M : HexaData F) (e0 f0 e1 f1 : Nat) (h0 : T e0 f0) (h1 : T e1 f1) :
    Glued T M (l.foldl (fun M ibc => M.connect ibc e0 f0 e1 f1) M) := by
  induction l generalizing M with
  | nil => exact Glued.refl T M
  | cons a l ih => exact (Glued.connect M a e0 f0 e1 f1 h0 h1).trans (ih _)

/-- Face `f` of element `e` passes the geometric test of `merge` with a face of another element. -/
def Spec.TouchIn (M : HexaData F) (tol : F) (e f : Nat) : Prop :=
  ∃ e' < M.elem.length, e' ≠ e ∧ ∃ f' < 2 * M.ndim, closeFaces (M.el e) f (M.el e') f' tol = .ok true ∨ closeFaces (M.el e') f' (M.el e) f tol = .ok true

theorem foldlM_glued {α : Type} {T : Nat → Nat → Prop} {f : HexaData F × Nat → α → Py (HexaData F × Nat)} (l : List α)
    (hf : ∀ s, ∀ a ∈ l, ∀ s', f s a = .ok s' → Glued T s.1 s'.1) (s s' : HexaData F × Nat)
    (h : l.foldlM f s = .ok s') : Glued T s.1 s'.1 := by
  induction l generalizing s with
  | nil => cases h; exact Glued.refl _ _
  | cons a l ih =>
    simp only [List.foldlM_cons] at h
    cases ha : f s a with
    | error e => rw [ha] at h; cases h
    | ok t =>
      rw [ha] at h
      exact (hf s a (List.mem_cons_self ..) t ha).trans (ih (fun s x hx => hf s x (List.mem_cons_of_mem _ hx)) t h)

theorem mergeInner_glued {T : Nat → Nat → Prop} (touch : Nat → Nat → Nat → Nat → Py Bool) (nbc : Nat) (ie : Bool) (e0 f0 : Nat) (bc0 : Name) (h0 : bc0 ≠ nP)
    (s : HexaData F × Nat) (t : Nat × Nat) (s' : HexaData F × Nat) (hT : touch e0 f0 t.1 t.2 = .ok true → T e0 f0 ∧ T t.1 t.2)
    (h : mergeInner touch nbc ie e0 f0 bc0 s t = .ok s') : Glued T s.1 s'.1 := by
  unfold mergeInner at h
  simp only [bind, Except.bind] at h
  split at h
  · split at h
    · cases h
    next v hv =>
    split at h
    · next hvt =>
      obtain rfl : v = true := hvt
      split at h
      · cases h
      next M hM =>
      cases h
      unfold HexaData.mergePair at hM
      rw [if_neg (fun hc => h0 (hc.1.trans hc.2))] at hM
      simp only [bind, Except.bind, pure, Except.pure] at hM
      cases hM
      exact Glued.connects _ _ _ _ _ _ (hT hv).1 (hT hv).2
    · cases h; exact Glued.refl _ _
  · cases h; exact Glued.refl _ _

/-- No face is periodic in the first field. -/
def NoP (M : HexaData F) : Prop := ∀ e < M.elem.length, ∀ f, (M.bc e 0 f).typ ≠ nP

/-- Without periodic faces `merge` only turns conditions of touching faces into internal ones, and none if told so. -/
theorem merge_glued {A B M : HexaData F} {tol : F} {ie ia : Bool} {n : Nat} (h : A.merge B tol ie ia = .ok (M, n))
    (hP : NoP (A.append B)) (hA : A.elem.length = A.nel) (hB : B.elem.length = B.nel) :
    Glued (fun e f => ia = false ∧ TouchIn (A.append B) tol e f) (A.append B) M := by
  unfold HexaData.merge at h
  split_ifs at h
  unfold HexaData.mergeWith at h
  simp only at h
  split_ifs at h with hn
  · cases h; exact Glued.refl _ _
  have hia : ia = false := by
    cases ia
    · rfl
    · exact absurd (Or.inr rfl) hn
  have hlen : (A.append B).elem.length = A.nel + B.nel := by rw [append_length, hA, hB]
  have key : ∀ (l : List (Nat × Nat)) (s s' : HexaData F × Nat),
      (∀ x ∈ l, A.nel ≤ x.1 ∧ x.1 < (A.append B).elem.length ∧ x.2 < 2 * A.ndim) →
      Glued (fun e f => ia = false ∧ TouchIn (A.append B) tol e f) (A.append B) s.1 →
      l.foldlM (mergeOuter (fun e0 f0 e1 f1 => closeFaces ((A.append B).el e0) f0 ((A.append B).el e1) f1 tol) (min A.nbc B.nbc) ie A.nel (2 * A.ndim)) s
        = .ok s' →
      Glued (fun e f => ia = false ∧ TouchIn (A.append B) tol e f) (A.append B) s'.1 := by
    intro l
    induction l with
    | nil => intro s s' _ hg hs; cases hs; exact hg
    | cons a l ih =>
      intro s s' hl hg hs
      rw [List.foldlM_cons] at hs
      cases ha : mergeOuter (fun e0 f0 e1 f1 => closeFaces ((A.append B).el e0) f0 ((A.append B).el e1) f1 tol) (min A.nbc B.nbc) ie A.nel (2 * A.ndim) s a with
      | error e => rw [ha] at hs; cases hs
      | ok t =>
        rw [ha] at hs
        refine ih t s' (fun x hx => hl x (List.mem_cons_of_mem _ hx)) (hg.trans ?_) hs
        obtain ⟨l1, l2, l3⟩ := hl a (List.mem_cons_self ..)
        unfold mergeOuter at ha
        simp only at ha
        split_ifs at ha
        · refine foldlM_glued _ (fun s x hx s' h => mergeInner_glued _ _ _ _ _ _ ?_ _ _ _ ?_ h) _ _ ha
          · rcases hg.2 a.1 l2 0 a.2 with h1 | h1
            · rw [h1]; exact hP _ l2 _
            · rw [h1.1]; decide
          · intro ht
            obtain ⟨x1, x2⟩ := mem_prod2.1 hx
            rw [List.mem_range] at x1 x2
            exact ⟨⟨hia, x.1, by omega, by omega, x.2, x2, Or.inl ht⟩, ⟨hia, a.1, l2, by omega, a.2, l3, Or.inr ht⟩⟩
        · cases ha; exact Glued.refl _ _
  refine key _ _ _ ?_ (Glued.refl _ _) h
  intro x hx
  obtain ⟨x1, x2⟩ := mem_prod2.1 hx
  rw [List.mem_range'_1] at x1
  rw [List.mem_range] at x2
  exact ⟨x1.1, by omega, x2⟩

theorem append_typ (A B : HexaData F) (e b f : Nat) (he : e < B.elem.length) :
    ((A.append B).bc (A.elem.length + e) b f).typ = (B.bc e b f).typ := by
  by_cases hc : b < B.nbc ∧ f < 2 * B.ndim
  · exact append_typ_right A B e b f he hc.1 hc.2
  · unfold HexaData.bc
    rw [append_el_right A B e he]
    simp only [hc, if_false]
    rfl

theorem NoP.append {A B : HexaData F} (hA : NoP A) (hB : NoP B) : NoP (A.append B) := by
  intro e he f
  rw [append_length] at he
  rcases Nat.lt_or_ge e A.elem.length with h | h
  · rw [append_bc_left A B e 0 f h]; exact hA e h f
  · obtain ⟨k, rfl⟩ : ∃ k, e = A.elem.length + k := ⟨e - A.elem.length, by omega⟩
    rw [append_typ A B k 0 f (by omega)]; exact hB k (by omega) f

theorem NoP.glued {T : Nat → Nat → Prop} {A M : HexaData F} (hA : NoP A) (h : Glued T A M) : NoP M := by
  intro e he f
  rw [h.1] at he
  rcases h.2 e he 0 f with h1 | h1
  · rw [h1]; exact hA e he f
  · rw [h1.1]; decide

theorem TouchIn.lift {A M : HexaData F} {tol : F} {e f : Nat} (h : TouchIn A tol e f) (he : e < A.elem.length)
    (hs : ∀ i < A.elem.length, SameButBcs (M.el i) (A.el i)) (hl : A.elem.length ≤ M.elem.length) (hd : M.ndim = A.ndim) : TouchIn M tol e f := by
  obtain ⟨e', h1, h2, f', h3, h4⟩ := h
  obtain ⟨g, hg⟩ := hs e he
  obtain ⟨g', hg'⟩ := hs e' h1
  refine ⟨e', by omega, h2, f', by rw [hd]; exact h3, ?_⟩
  rw [hg, hg']
  exact h4

/-- What `merge` does to the types of conditions, without periodic faces. -/
theorem merge_typs {A B M : HexaData F} {tol : F} {ie ia : Bool} {n : Nat} (h : A.merge B tol ie ia = .ok (M, n))
    (pA : NoP A) (pB : NoP B) (hA : A.elem.length = A.nel) (hB : B.elem.length = B.nel) :
    NoP M ∧ (∀ i < A.elem.length, ∀ b f, (M.bc i b f).typ = (A.bc i b f).typ ∨ ((M.bc i b f).typ = nE ∧ ia = false ∧ TouchIn M tol i f)) ∧
      (∀ i < B.elem.length, ∀ b f, (M.bc (A.elem.length + i) b f).typ = (B.bc i b f).typ ∨
        ((M.bc (A.elem.length + i) b f).typ = nE ∧ ia = false ∧ TouchIn M tol (A.elem.length + i) f)) := by
  have hg := merge_glued h (pA.append pB) hA hB
  have hF : Frame (A.append B) M := by
    have h' := h
    unfold HexaData.merge at h'
    split_ifs at h'
    exact mergeWith_frame A B _ ie ia M n h'
  have hlift : ∀ i < (A.append B).elem.length, ∀ f, TouchIn (A.append B) tol i f → TouchIn M tol i f := fun i hi f ht =>
    TouchIn.lift ht hi (fun j hj => ⟨_, hF.el j hj⟩) hF.len.ge hF.ndim
  refine ⟨(pA.append pB).glued hg, fun i hi b f => ?_, fun i hi b f => ?_⟩
  · have hl : i < (A.append B).elem.length := by rw [append_length]; omega
    rw [← append_bc_left A B i b f hi]
    rcases hg.2 i hl b f with h1 | ⟨h1, h2, h3⟩
    · exact Or.inl h1
    · exact Or.inr ⟨h1, h2, hlift _ hl _ h3⟩
  · have hl : A.elem.length + i < (A.append B).elem.length := by rw [append_length]; omega
    rw [← append_typ A B i b f hi]
    rcases hg.2 _ hl b f with h1 | ⟨h1, h2, h3⟩
    · exact Or.inl h1
    · exact Or.inr ⟨h1, h2, hlift _ hl _ h3⟩

/-- The condition of face `f` of element `i` is of type `t`, or internal because the face touches another one. -/
def Spec.KeptOrGlued (M : HexaData F) (tol : F) (ia : Bool) (i b f : Nat) (t : Name) : Prop :=
  (M.bc i b f).typ = t ∨ ((M.bc i b f).typ = nE ∧ ia = false ∧ TouchIn M tol i f)

theorem KeptOrGlued.merge {A B M : HexaData F} {tol : F} {ie ia : Bool} {n : Nat} (h : A.merge B tol ie ia = .ok (M, n))
    (pA : NoP A) (pB : NoP B) (hA : A.elem.length = A.nel) (hB : B.elem.length = B.nel) {i b f : Nat} {t : Name} (hi : i < A.elem.length)
    (hk : KeptOrGlued A tol ia i b f t) : KeptOrGlued M tol ia i b f t := by
  obtain ⟨-, h1, -⟩ := merge_typs h pA pB hA hB
  obtain ⟨m1, -, m3, -, m5, -⟩ := merge_same h
  rcases h1 i hi b f with h2 | h2
  · rcases hk with h3 | ⟨h3, h4, h5⟩
    · exact Or.inl (h2.trans h3)
    · exact Or.inr ⟨h2.trans h3, h4, TouchIn.lift h5 hi m5 (by omega) m3⟩
  · exact Or.inr h2

/-- The types of conditions after five meshes without periodic faces were merged. -/
theorem merge_five_typs {A M1 M2 M3 M : HexaData F} {B : Nat → HexaData F} {tol : F} {ie ia : Bool} {n1 n2 n3 n4 a b : Nat}
    (h1 : A.merge (B 0) tol ie ia = .ok (M1, n1)) (h2 : M1.merge (B 1) tol ie ia = .ok (M2, n2))
    (h3 : M2.merge (B 2) tol ie ia = .ok (M3, n3)) (h4 : M3.merge (B 3) tol ie ia = .ok (M, n4))
    (hA : A.elem.length = a) (hB : ∀ q, (B q).elem.length = b) (hA' : A.nel = a) (hB' : ∀ q, (B q).nel = b) (pA : NoP A) (pB : ∀ q, NoP (B q)) :
    (∀ i < a, ∀ c f, KeptOrGlued M tol ia i c f (A.bc i c f).typ) ∧
      (∀ q < 4, ∀ k < b, ∀ c f, KeptOrGlued M tol ia (a + b * q + k) c f ((B q).bc k c f).typ) := by
  have hBB : ∀ q, (B q).elem.length = (B q).nel := fun q => by rw [hB, hB']
  obtain ⟨p1, s1, t1⟩ := merge_typs h1 pA (pB 0) (by rw [hA, hA']) (hBB 0)
  obtain ⟨a1, a2, -⟩ := merge_same h1
  rw [hB, hA] at a1; rw [hB', hA'] at a2
  have l1 : M1.elem.length = M1.nel := by rw [a1, a2]
  obtain ⟨p2, s2, t2⟩ := merge_typs h2 p1 (pB 1) l1 (hBB 1)
  obtain ⟨b1, b2, -⟩ := merge_same h2
  rw [hB, a1] at b1; rw [hB', a2] at b2
  have l2 : M2.elem.length = M2.nel := by rw [b1, b2]
  obtain ⟨p3, s3, t3⟩ := merge_typs h3 p2 (pB 2) l2 (hBB 2)
  obtain ⟨c1, c2, -⟩ := merge_same h3
  rw [hB, b1] at c1; rw [hB', b2] at c2
  have l3 : M3.elem.length = M3.nel := by rw [c1, c2]
  obtain ⟨p4, s4, t4⟩ := merge_typs h4 p3 (pB 3) l3 (hBB 3)
  have u2 : ∀ i < a + b, ∀ c f t, KeptOrGlued M1 tol ia i c f t → KeptOrGlued M2 tol ia i c f t :=
    fun i hi c f t hk => KeptOrGlued.merge h2 p1 (pB 1) l1 (hBB 1) (by rw [a1]; exact hi) hk
  have u3 : ∀ i < a + b + b, ∀ c f t, KeptOrGlued M2 tol ia i c f t → KeptOrGlued M3 tol ia i c f t :=
    fun i hi c f t hk => KeptOrGlued.merge h3 p2 (pB 2) l2 (hBB 2) (by rw [b1]; exact hi) hk
  have u4 : ∀ i < a + b + b + b, ∀ c f t, KeptOrGlued M3 tol ia i c f t → KeptOrGlued M tol ia i c f t :=
    fun i hi c f t hk => KeptOrGlued.merge h4 p3 (pB 3) l3 (hBB 3) (by rw [c1]; exact hi) hk
  rw [hA] at s1 t1
  rw [a1] at t2
  rw [b1] at t3
  rw [c1] at t4
  rw [hB] at t1 t2 t3 t4
  clear h1 h2 h3 h4 p1 p2 p3 p4 a1 a2 b1 b2 c1 c2 l1 l2 l3 s2 s3 s4 hA hB hA' hB' hBB pA pB
  have w0 : ∀ i < a, i < a + b ∧ i < a + b + b ∧ i < a + b + b + b := fun i hi => by clear * - hi; omega
  have w1 : ∀ k < b, a + k < a + b ∧ a + k < a + b + b ∧ a + k < a + b + b + b := fun i hi => by clear * - hi; omega
  have w2 : ∀ k < b, a + b + k < a + b + b ∧ a + b + k < a + b + b + b := fun i hi => by clear * - hi; omega
  have w3 : ∀ k < b, a + b + b + k < a + b + b + b := fun i hi => by clear * - hi; omega
  refine ⟨fun i hi c f => ?_, fun q hq k hk c f => ?_⟩
  · obtain ⟨x, y, z⟩ := w0 i hi
    exact u4 _ z _ _ _ (u3 _ y _ _ _ (u2 _ x _ _ _ (s1 i hi c f)))
  · rcases (by clear * - hq; omega : q = 0 ∨ q = 1 ∨ q = 2 ∨ q = 3) with rfl | rfl | rfl | rfl
    · rw [Nat.mul_zero, Nat.add_zero]
      obtain ⟨x, y, z⟩ := w1 k hk
      exact u4 _ z _ _ _ (u3 _ y _ _ _ (u2 _ x _ _ _ (t1 k hk c f)))
    · rw [Nat.mul_one]
      obtain ⟨x, y⟩ := w2 k hk
      exact u4 _ y _ _ _ (u3 _ x _ _ _ (t2 k hk c f))
    · rw [show a + b * 2 + k = a + b + b + k by clear * -; omega]
      exact u4 _ (w3 k hk) _ _ _ (t3 k hk c f)
    · rw [show a + b * 3 + k = a + b + b + b + k by clear * -; omega]
      exact t4 k hk c f

theorem quarter_bc (m : MathFns F) (o : HexaData F) (q k b f : Nat) (hk : k < o.elem.length) : (quarter m o q).bc k b f = o.bc k b f := by
  induction q with
  | zero => rfl
  | succ q ih =>
    rw [← ih]
    unfold HexaData.bc
    rw [quarter, rotate2d_el _ _ _ _ _ _ (by rw [quarter_len]; exact hk)]
    rfl

/-- The type written by `build_connectivity` and `apply_bcs`. -/
theorem circleBcs_typ (ib : Bool) (nbc ni nj i j : Nat) (bc0 bc1 bc2 bc3 : List Name) (g : Nat → Nat → BC F) (b f : Nat) :
    let t := (circleBcs ib nbc ni nj i j bc0 bc1 bc2 bc3 g b f).typ
    t = (g b f).typ ∨ t = nE ∨ b < nbc ∧ (t = u3 (bc0.getD b []) ∨ t = u3 (bc1.getD b []) ∨ t = u3 (bc2.getD b []) ∨ t = u3 (bc3.getD b [])) := by
  intro t
  have hi : ∀ r : BC F, (boxInner ni nj i j f r).typ = r.typ ∨ (boxInner ni nj i j f r).typ = nE := by
    intro r
    unfold boxInner
    simp only
    split_ifs <;> first | exact Or.inl rfl | exact Or.inr rfl
  simp only [t]
  unfold circleBcs
  split_ifs with hb h1
  · unfold circleBc
    split_ifs <;> simp only [hb, true_and, true_or, or_true]
    rcases hi (g b f) with h | h
    · exact Or.inl h
    · exact Or.inr (Or.inl h)
  · unfold circleBc
    split_ifs <;> simp only [hb, true_and, true_or, or_true]
  · exact Or.inl rfl

theorem con_ne_P (n b : Nat) : u3 ((List.replicate n nCon).getD b []) ≠ nP := by
  rw [List.getD_eq_getElem?_getD, List.getElem?_replicate]
  split <;> decide

theorem square_noP (native : Endian) (m : MathFns F) (r s : F) (ns : Nat) (var : Var) (nbc : Nat) (ib : Bool) :
    NoP (circleSquare native m r s ns var nbc ib) := by
  obtain ⟨-, s2, -, -, -, -, s6⟩ := square_ccurv native m r s ns var nbc ib
  intro i hi f
  rw [s2] at hi
  unfold HexaData.bc
  rw [(s6 i hi).2.2.1]
  have := circleBcs_typ ib nbc ns ns (i % ns) (i / ns) (List.replicate nbc nCon) (List.replicate nbc nCon)
    (List.replicate nbc nCon) (List.replicate nbc nCon) (Elem.new var.pres var.temp var.scal 2 2 1 nbc : Elem F).bcs 0 f
  simp only at this
  rcases this with t | t | ⟨-, t | t | t | t⟩ <;> rw [t]
  · show ([] : Name) ≠ nP
    decide
  · decide
  all_goals exact con_ne_P _ _

theorem circleO_noP {native : Endian} {m : MathFns F} {cf bl : F → Py F} {r s : F} {ns no : Nat} {var : Var} {bc : List Name} {ib : Bool} {o : HexaData F}
    (ho : circleO native m cf bl r s ns no var bc ib = .ok o) (hP : u3 (bc.getD 0 []) ≠ nP) : NoP o := by
  obtain ⟨o1, o2, -, -, -, -, o6⟩ := circleO_eq ho
  intro i hi f
  rw [o2] at hi
  unfold HexaData.bc
  rw [(o6 i hi).2.2.1]
  have := circleBcs_typ ib bc.length no ns (i % no) (i / no) (List.replicate bc.length nCon) bc
    (List.replicate bc.length nCon) (List.replicate bc.length nCon) (Elem.new var.pres var.temp var.scal 2 2 1 bc.length : Elem F).bcs 0 f
  simp only at this
  rcases this with t | t | ⟨-, t | t | t | t⟩ <;> rw [t]
  · show ([] : Name) ≠ nP
    decide
  · decide
  · exact con_ne_P _ _
  · exact hP
  all_goals exact con_ne_P _ _

theorem quarter_noP {m : MathFns F} {o : HexaData F} (h : NoP o) (q : Nat) : NoP (quarter m o q) := by
  intro k hk f
  rw [quarter_len] at hk
  rw [quarter_bc m o q k 0 f hk]
  exact h k hk f

/-- **C63**, the conditions. Unless a condition given is periodic, the curved faces of the mesh returned by `gen_circle` carry the
conditions `bc` (cut to three characters), field by field; a face can only have lost its condition to an internal connection if
`internal_bcs` was set and the face touches, within a hundredth of the size of the elements, a face of another element. -/
theorem C63_bc_partial {native : Endian} {m : MathFns F} {r s : F} {ns no : Nat} {cf bl : Option (F → Py F)} {var : Var} {bc : List Name} {ib : Bool}
    {M : HexaData F} (h : genCircle native m r s ns no cf bl var bc ib = .ok M) (hP : u3 (bc.getD 0 []) ≠ nP) (i : Nat) (hi : i < M.nel) (e : Nat)
    (he : (M.el i).ccurv e ≠ []) (b : Nat) (hb : b < bc.length) : KeptOrGlued M (1 / 100) (!ib) i b e (u3 (bc.getD b [])) := by
  obtain ⟨n1, -, -, -, -, n6⟩ := C63 h
  obtain ⟨rfl, e2, e3⟩ := ((n6 i hi e).1).1 he
  obtain ⟨cf', bl', o, M1, M2, M3, m1, m2, m3, m4, hpos, -, hcf, hbl, ho, h1, h2, h3, h4⟩ := genCircle_eq h
  obtain ⟨o1, o2, -, -, -, -, o6⟩ := circleO_eq ho
  obtain ⟨s1, s2, s3, -, s5, -, s6⟩ := square_ccurv native m r s ns var bc.length ib
  have pA := square_noP native m r s ns var bc.length ib
  have pB := fun q => quarter_noP (m := m) (circleO_noP ho hP) q
  obtain ⟨-, hq⟩ := merge_five_typs (B := quarter m o) h1 h2 h3 h4 s2 (fun q => (quarter_len m o q).trans o2) s1
    (fun q => (quarter_nel m o q).trans o1) pA pB
  clear h1 h2 h3 h4
  rw [n1, Nat.mul_comm ns no] at hi
  have hp : 0 < no * ns := by clear * - hi e2; omega
  obtain ⟨q, k, hq4, hk, rfl⟩ : ∃ q k, q < 4 ∧ k < no * ns ∧ i = ns * ns + no * ns * q + k := by
    refine ⟨(i - ns * ns) / (no * ns), (i - ns * ns) % (no * ns), ?_, Nat.mod_lt _ hp, ?_⟩
    · rw [Nat.div_lt_iff_lt_mul hp]; clear * - hi e2; omega
    · have := Nat.div_add_mod (i - ns * ns) (no * ns); clear * - this e2; omega
  have hmod : (ns * ns + no * ns * q + k - ns * ns) % no = k % no := by
    rw [Nat.add_assoc, Nat.add_sub_cancel_left, Nat.mul_assoc, Nat.mul_add_mod]
  rw [hmod] at e3
  have ht : ((quarter m o q).bc k b 1).typ = u3 (bc.getD b []) := by
    rw [quarter_bc m o q k b 1 (by rw [o2]; exact hk)]
    unfold HexaData.bc
    rw [(o6 k hk).2.2.1]
    unfold circleBcs
    rw [if_pos hb]
    unfold circleBc
    simp only [e3, Nat.one_ne_zero, false_and, if_false, and_true, if_true, show (1 : Nat) ≠ 2 by decide]
  rw [← ht]
  exact hq q hq4 k hk b 1

/-- **C64** is false in the code for `gen_circle`: the attribute `ncurv` of every mesh it returns is 0. -/
theorem C64_circle {native : Endian} {m : MathFns F} {r s : F} {ns no : Nat} {cf bl : Option (F → Py F)} {var : Var} {bc : List Name} {ib : Bool}
    {M : HexaData F} (h : genCircle native m r s ns no cf bl var bc ib = .ok M) : M.ncurv = 0 ∧ (0 < ns → M.ncurv ≠ curvedEdges M) := by
  have hc := (C63 h).2.2.2.2.1
  obtain ⟨cf', bl', o, M1, M2, M3, n1, n2, n3, n4, hpos, -, -, -, ho, h1, h2, h3, h4⟩ := genCircle_eq h
  have ho' := (circleO_eq ho).2.2.2.2.2.1
  obtain ⟨a1, -⟩ := merge_concat _ _ _ _ _ _ _ h1
  obtain ⟨b1, -⟩ := merge_concat _ _ _ _ _ _ _ h2
  obtain ⟨c1, -⟩ := merge_concat _ _ _ _ _ _ _ h3
  obtain ⟨d1, -⟩ := merge_concat _ _ _ _ _ _ _ h4
  have e1 : M1.ncurv = 0 := by rw [a1]; simp only [ho', Nat.add_zero]; rfl
  have e2 : M2.ncurv = 0 := by rw [b1]; simp only [e1, quarter_ncurv, ho']
  have e3 : M3.ncurv = 0 := by rw [c1]; simp only [e2, quarter_ncurv, ho']
  have e4 : M.ncurv = 0 := by rw [d1]; simp only [e3, quarter_ncurv, ho']
  exact ⟨e4, fun h => by omega⟩

end Pymech
