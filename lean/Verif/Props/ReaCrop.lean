import Verif.Lemmas.ReaCrop
import Verif.Props.ReaForeign
import Verif.Props.Map

/-!
# C121: `.rea` files that lost their end
-/

set_option autoImplicit false

namespace Pymech

open Spec

/-! ### What the parts of `readrea` did -/

/-- `readrea` with the lines and the number of fields. -/
def readLines (native : Endian) (nbc : Nat) (ls : List Text) : Py (HexaData F64) := do
  let ndim ← intWord (ls.getD 2 [])
  let npar ← intWord (ls.getD 3 [])
  if npar < 0 then .error .valueError
  else do
    readParams npar.toNat (ls.drop 4)
    let ls := ls.drop (4 + npar.toNat)
    let npscal ← intWord (ls.getD 0 [])
    let ls := ls.drop (1 + npscal.toNat)
    let nswitch ← intWord (ls.getD 0 [])
    let ls := ls.drop (1 + nswitch.toNat)
    let nel ← intWord (ls.getD 2 [])
    if ndim < 1 ∨ nel < 0 then .error .valueError
    else readMesh native ndim.toNat nel.toNat nbc (ls.drop 3)

theorem readrea_lines (native : Endian) (s : Text) : readrea native s = readLines native ((linesT s).filter isBcHead).length (linesT s) := rfl

theorem readLines_inv {native : Endian} {nbc : Nat} {ls : List Text} {M : HexaData F64} (h : readLines native nbc ls = .ok M) :
    ∃ nd npar nscal nsw nel : Int, 1 ≤ nd ∧ intWord (ls.getD 2 []) = .ok nd ∧ intWord (ls.getD 3 []) = .ok npar ∧
      intWord (ls.getD (4 + npar.toNat) []) = .ok nscal ∧ intWord (ls.getD (4 + npar.toNat + (1 + nscal.toNat)) []) = .ok nsw ∧
      intWord (ls.getD (4 + npar.toNat + (1 + nscal.toNat) + (1 + nsw.toNat) + 2) []) = .ok nel ∧
      readMesh native nd.toNat nel.toNat nbc (ls.drop (4 + npar.toNat + (1 + nscal.toNat) + (1 + nsw.toNat) + 3)) = .ok M := by
  unfold readLines at h
  obtain ⟨nd, h1, h⟩ := py_bind.mp h
  obtain ⟨npar, h2, h⟩ := py_bind.mp h
  split at h
  · cases h
  obtain ⟨_, _, h⟩ := py_bind.mp h
  dsimp only at h
  obtain ⟨nscal, h3, h⟩ := py_bind.mp h
  obtain ⟨nsw, h4, h⟩ := py_bind.mp h
  obtain ⟨nel, h5, h⟩ := py_bind.mp h
  split at h
  · cases h
  rename_i hn
  simp only [getD_drop, List.drop_drop] at h h3 h4 h5
  exact ⟨nd, npar, nscal, nsw, nel, by omega, h1, h2, h3, h4, by simpa [Nat.add_assoc] using h5, by simpa [Nat.add_assoc] using h⟩

theorem readFaces_inv {nd nel nbc : Nat} {M N : HexaData F64} {ls : List Text} (h : readFaces nd nel nbc M ls = .ok N) (hl : M.elem.length = nel) :
    N = { M with elem := N.elem } ∧ N.elem.length = nel ∧
      (∀ i < nel, (N.el i).pos = (M.el i).pos ∧ (N.el i).curv = (M.el i).curv ∧ (N.el i).ccurv = (M.el i).ccurv) ∧
      ∀ i < nel, ∀ b < nbc, ∀ f < 2 * nd,
        readBC nel i f (ls.getD ((1 + nel * (2 * nd)) * b + 1 + 2 * nd * i + f) []) = .ok (N.bc i b f) := by
  unfold readFaces at h
  obtain ⟨rs, hrs, h⟩ := py_bind.mp h
  cases h
  have hel : ∀ i < nel, ({ M with elem := M.elem.mapIdx fun i el => { el with bcs := fun b f => if b < nbc ∧ f < 2 * nd then rs.getD ((b * nel + i) * (2 * nd) + f) BC.zero else BC.zero } } : HexaData F64).el i =
      { M.el i with bcs := fun b f => if b < nbc ∧ f < 2 * nd then rs.getD ((b * nel + i) * (2 * nd) + f) BC.zero else BC.zero } := by
    intro i hi
    unfold HexaData.el
    rw [List.getD_eq_getElem?_getD, List.getElem?_mapIdx, List.getElem?_eq_getElem (by omega), List.getD_eq_getElem?_getD,
      List.getElem?_eq_getElem (by omega)]
    rfl
  refine ⟨rfl, by simpa using hl, fun i hi => ?_, fun i hi b hb f hf => ?_⟩
  · rw [hel i hi]
    exact ⟨rfl, rfl, rfl⟩
  · unfold HexaData.bc
    rw [hel i hi]
    dsimp only
    rw [if_pos ⟨hb, hf⟩]
    obtain ⟨hlen, hget⟩ := List.forall₂_iff_get.mp (mapM_ok_inv _ _ _ hrs)
    have hp := getElem?_prod3 _ _ _ b i f hb hi hf
    obtain ⟨hk, hp⟩ := List.getElem?_eq_some_iff.mp hp
    have hk' := hk
    rw [hlen] at hk'
    have := hget _ hk hk'
    rw [List.get_eq_getElem, List.get_eq_getElem] at this
    rw [hp] at this
    have e : rs.getD ((b * nel + i) * (2 * nd) + f) BC.zero = rs[(b * nel + i) * (2 * nd) + f] := by
      rw [List.getD_eq_getElem?_getD, List.getElem?_eq_getElem hk']
      rfl
    rw [e]
    exact this

theorem putReaCurve_inv {nel : Nat} {M N : HexaData F64} {l : Text} (h : putReaCurve nel M l = .ok N) :
    ∃ iedge iel x0 x1 x2 x3 x4 i k t,
      colInt l 0 (curveCols nel).1 = .ok iedge ∧ colInt l (curveCols nel).1 (curveCols nel).2 = .ok iel ∧
      colFloat l (curveCols nel).2 ((curveCols nel).2 + 14) = .ok x0 ∧ pyIndex M.elem.length (iel - 1) = .ok i ∧ pyIndex 12 (iedge - 1) = .ok k ∧
      colFloat l ((curveCols nel).2 + 14) ((curveCols nel).2 + 28) = .ok x1 ∧ colFloat l ((curveCols nel).2 + 28) ((curveCols nel).2 + 42) = .ok x2 ∧
      colFloat l ((curveCols nel).2 + 42) ((curveCols nel).2 + 56) = .ok x3 ∧ colFloat l ((curveCols nel).2 + 56) ((curveCols nel).2 + 70) = .ok x4 ∧
      wordAt (cols l ((curveCols nel).2 + 70) ((curveCols nel).2 + 73)) 0 = .ok t ∧
      N = { M with elem := M.elem.modify i fun el => el.setCurve k (fun j => if j = 0 then x0 else if j = 1 then x1 else if j = 2 then x2 else if j = 3 then x3 else x4) t } := by
  unfold putReaCurve at h
  dsimp only at h
  obtain ⟨iedge, h1, h⟩ := py_bind.mp h
  obtain ⟨iel, h2, h⟩ := py_bind.mp h
  obtain ⟨x0, h3, h⟩ := py_bind.mp h
  obtain ⟨i, h4, h⟩ := py_bind.mp h
  obtain ⟨k, h5, h⟩ := py_bind.mp h
  obtain ⟨x1, h6, h⟩ := py_bind.mp h
  obtain ⟨x2, h7, h⟩ := py_bind.mp h
  obtain ⟨x3, h8, h⟩ := py_bind.mp h
  obtain ⟨x4, h9, h⟩ := py_bind.mp h
  obtain ⟨t, h10, h⟩ := py_bind.mp h
  cases h
  exact ⟨iedge, iel, x0, x1, x2, x3, x4, i, k, t, h1, h2, h3, h4, h5, h6, h7, h8, h9, h10, rfl⟩

theorem putReaCurve_ne {nel : Nat} {M N : HexaData F64} {l : Text} (h : putReaCurve nel M l = .ok N) : l ≠ [] := by
  obtain ⟨_, _, _, _, _, _, _, _, _, _, _, _, _, _, _, _, _, _, _, h, _⟩ := putReaCurve_inv h
  have := wordAt_long h
  rintro rfl
  simp at this

theorem curveCols_le (nel : Nat) : (curveCols nel).1 ≤ (curveCols nel).2 := by
  unfold curveCols
  split
  · decide
  · split <;> decide

/-- The line of a curved edge that lost its end, but still has a type. -/
theorem putReaCurve_cut {nel : Nat} {M M' N N' : HexaData F64} {l q : Text} (hq : q <+: l) (hl : M'.elem.length = M.elem.length)
    (h : putReaCurve nel M l = .ok N) (h' : putReaCurve nel M' q = .ok N') :
    ∃ i k v t t', i < M.elem.length ∧ N = { M with elem := M.elem.modify i fun el => el.setCurve k v t } ∧
      N' = { M' with elem := M'.elem.modify i fun el => el.setCurve k v t' } ∧ t' ≠ [] ∧ t' <+: t ∧ (q = l → t' = t) := by
  obtain ⟨a, b, x0, x1, x2, x3, x4, i, k, t, h1, h2, h3, h4, h5, h6, h7, h8, h9, h10, rfl⟩ := putReaCurve_inv h
  obtain ⟨a', b', y0, y1, y2, y3, y4, i', k', t', g1, g2, g3, g4, g5, g6, g7, g8, g9, g10, rfl⟩ := putReaCurve_inv h'
  have hlen := wordAt_long g10
  have hc := curveCols_le nel
  generalize curveCols nel = C at *
  unfold colInt at h1 h2 g1 g2
  unfold colFloat at h3 h6 h7 h8 h9 g3 g6 g7 g8 g9
  rw [cols_prefix hq _ _ (by omega)] at g1 g2 g3 g6 g7 g8 g9
  rw [h1] at g1; cases g1
  rw [h2] at g2; cases g2
  rw [h3] at g3; cases g3
  rw [hl, h4] at g4; cases g4
  rw [h5] at g5; cases g5
  rw [h6] at g6; cases g6
  rw [h7] at g7; cases g7
  rw [h8] at g8; cases g8
  rw [h9] at g9; cases g9
  obtain ⟨e1, e2⟩ := wordAt_cut (cols_cut hq _ _) g10 h10
  refine ⟨i, k, _, t, t', ?_, rfl, rfl, e1, e2, ?_⟩
  · have := pyIndex_ok_iff.mp h4
    omega
  · rintro rfl
    rw [h10] at g10
    cases g10
    rfl

theorem readBC_tail {nel : Nat} {A B : Py Int} {l : Text} {r : BC F64} {own face : Int}
    (h : (do
      let x3 ← colFloat l (if nel < 10 ^ 6 then 10 else 16) ((if nel < 10 ^ 6 then 10 else 16) + (if nel < 10 ^ 6 then 14 else 18))
      let x4 ← colFloat l ((if nel < 10 ^ 6 then 10 else 16) + (if nel < 10 ^ 6 then 14 else 18)) ((if nel < 10 ^ 6 then 10 else 16) + 2 * (if nel < 10 ^ 6 then 14 else 18))
      let x5 ← colFloat l ((if nel < 10 ^ 6 then 10 else 16) + 2 * (if nel < 10 ^ 6 then 14 else 18)) ((if nel < 10 ^ 6 then 10 else 16) + 3 * (if nel < 10 ^ 6 then 14 else 18))
      let x6 ← colFloat l ((if nel < 10 ^ 6 then 10 else 16) + 3 * (if nel < 10 ^ 6 then 14 else 18)) ((if nel < 10 ^ 6 then 10 else 16) + 4 * (if nel < 10 ^ 6 then 14 else 18))
      let x7 ← colFloat l ((if nel < 10 ^ 6 then 10 else 16) + 4 * (if nel < 10 ^ 6 then 14 else 18)) ((if nel < 10 ^ 6 then 10 else 16) + 5 * (if nel < 10 ^ 6 then 14 else 18))
      if npU3 (stripT (cols l 1 3)) = nE ∧ x3.mag = 0 then pure BC.zero else pure ⟨npU3 (stripT (cols l 1 3)), own, face, x3, x4, x5, x6, x7⟩) = .ok r)
    (h1 : A = .ok own) (h2 : B = .ok face) :
    ∃ own face x3 x4 x5 x6 x7, A = .ok own ∧ B = .ok face ∧
      ∃ s w, s = (if nel < 10 ^ 6 then 10 else 16) ∧ w = (if nel < 10 ^ 6 then 14 else 18) ∧
      colFloat l s (s + w) = .ok x3 ∧ colFloat l (s + w) (s + 2 * w) = .ok x4 ∧ colFloat l (s + 2 * w) (s + 3 * w) = .ok x5 ∧
      colFloat l (s + 3 * w) (s + 4 * w) = .ok x6 ∧ colFloat l (s + 4 * w) (s + 5 * w) = .ok x7 ∧
      r = if npU3 (stripT (cols l 1 3)) = nE ∧ x3.mag = 0 then BC.zero else ⟨npU3 (stripT (cols l 1 3)), own, face, x3, x4, x5, x6, x7⟩ := by
  obtain ⟨x3, h3, h⟩ := py_bind.mp h
  obtain ⟨x4, h4, h⟩ := py_bind.mp h
  obtain ⟨x5, h5, h⟩ := py_bind.mp h
  obtain ⟨x6, h6, h⟩ := py_bind.mp h
  obtain ⟨x7, h7, h⟩ := py_bind.mp h
  refine ⟨own, face, x3, x4, x5, x6, x7, h1, h2, _, _, rfl, rfl, h3, h4, h5, h6, h7, ?_⟩
  split at h
  · rename_i hc
    rw [if_pos hc]
    exact (Except.ok.inj h).symm
  · rename_i hc
    rw [if_neg hc]
    exact (Except.ok.inj h).symm

theorem readBC_inv {nel i f : Nat} {l : Text} {r : BC F64} (h : readBC nel i f l = .ok r) :
    ∃ own face x3 x4 x5 x6 x7, (if nel < 10 ^ 3 then colInt l 4 7 else if nel < 10 ^ 6 then pure ((i : Int) + 1) else colInt l 4 15) = .ok own ∧
      (if nel < 10 ^ 3 then colInt l 7 10 else if nel < 10 ^ 6 then pure ((f : Int) + 1) else colInt l 15 16) = .ok face ∧
      ∃ s w, s = (if nel < 10 ^ 6 then 10 else 16) ∧ w = (if nel < 10 ^ 6 then 14 else 18) ∧
      colFloat l s (s + w) = .ok x3 ∧ colFloat l (s + w) (s + 2 * w) = .ok x4 ∧ colFloat l (s + 2 * w) (s + 3 * w) = .ok x5 ∧
      colFloat l (s + 3 * w) (s + 4 * w) = .ok x6 ∧ colFloat l (s + 4 * w) (s + 5 * w) = .ok x7 ∧
      r = if npU3 (stripT (cols l 1 3)) = nE ∧ x3.mag = 0 then BC.zero else ⟨npU3 (stripT (cols l 1 3)), own, face, x3, x4, x5, x6, x7⟩ := by
  unfold readBC at h
  split at h
  · cases h
  dsimp only at h
  by_cases c3 : nel < 10 ^ 3
  · have c6 : nel < 10 ^ 6 := by omega
    rw [if_pos c3] at h
    obtain ⟨own, h1, h⟩ := py_bind.mp h
    rw [if_pos c3] at h
    obtain ⟨face, h2, h⟩ := py_bind.mp h
    exact readBC_tail h (by rw [if_pos c3]; exact h1) (by rw [if_pos c3]; exact h2)
  · rw [if_neg c3] at h
    by_cases c6 : nel < 10 ^ 6
    · rw [if_pos c6] at h
      obtain ⟨own, h1, h⟩ := py_bind.mp h
      rw [if_neg c3, if_pos c6] at h
      obtain ⟨face, h2, h⟩ := py_bind.mp h
      exact readBC_tail h (by rw [if_neg c3, if_pos c6]; exact h1) (by rw [if_neg c3, if_pos c6]; exact h2)
    · rw [if_neg c6] at h
      obtain ⟨own, h1, h⟩ := py_bind.mp h
      rw [if_neg c3, if_neg c6] at h
      obtain ⟨face, h2, h⟩ := py_bind.mp h
      exact readBC_tail h (by rw [if_neg c3, if_neg c6]; exact h1) (by rw [if_neg c3, if_neg c6]; exact h2)

theorem readBC_ne {nel i f : Nat} {l : Text} {r : BC F64} (h : readBC nel i f l = .ok r) : l ≠ [] := by
  obtain ⟨_, _, _, _, _, _, _, _, _, s, w, _, _, h, _⟩ := readBC_inv h
  have := colFloat_long h
  rintro rfl
  simp at this

/-- The line of a condition that lost its end, but still has all numbers. -/
theorem readBC_cut {nel i f : Nat} {l q : Text} {r r' : BC F64} (hq : q <+: l) (h : readBC nel i f l = .ok r) (h' : readBC nel i f q = .ok r') :
    ∃ x, r' = { r with p7 := x } := by
  obtain ⟨own, face, x3, x4, x5, x6, x7, h1, h2, s, w, hs, hw, h3, h4, h5, h6, h7, rfl⟩ := readBC_inv h
  obtain ⟨own', face', y3, y4, y5, y6, y7, g1, g2, s', w', hs', hw', g3, g4, g5, g6, g7, rfl⟩ := readBC_inv h'
  obtain rfl : s' = s := by rw [hs, hs']
  obtain rfl : w' = w := by rw [hw, hw']
  have hlen := colFloat_long g7
  have h16 : (if nel < 10 ^ 6 then 10 else 16) ≤ q.length := by omega
  have h60 : 60 < q.length := by
    split at hs <;> split at hw <;> omega
  unfold colInt at h1 h2 g1 g2
  unfold colFloat at h3 h4 h5 h6 g3 g4 g5 g6
  rw [cols_prefix hq _ _ (by omega), cols_prefix hq _ _ (by omega)] at g1 g2
  rw [cols_prefix hq _ _ (by omega)] at g3 g4 g5 g6
  rw [cols_prefix hq _ _ (by omega)]
  rw [h1] at g1; cases g1
  rw [h2] at g2; cases g2
  rw [h3] at g3; cases g3
  rw [h4] at g4; cases g4
  rw [h5] at g5; cases g5
  rw [h6] at g6; cases g6
  split
  · exact ⟨_, rfl⟩
  · exact ⟨y7, rfl⟩

/-! ### Comparison -/

/-- The same coordinates and curved edges. -/
structure SameSides (M M' : HexaData F64) : Prop where
  len : M'.elem.length = M.elem.length
  el : ∀ i < M.elem.length, (M'.el i).pos = (M.el i).pos ∧ (M'.el i).curv = (M.el i).curv ∧ (M'.el i).ccurv = (M.el i).ccurv

/-- Everything but elements. -/
def Outer (M N : HexaData F64) : Prop := N = { M with elem := N.elem } ∧ N.elem.length = M.elem.length

theorem Outer.trans {A B C : HexaData F64} (h : Outer A B) (h' : Outer B C) : Outer A C := by
  refine ⟨?_, h'.2.trans h.2⟩
  rw [h'.1, h.1]

theorem fold_curves {nel : Nat} (L L' : Nat → Text) : ∀ (p : Nat) (S S' A A' : HexaData F64), (∀ k < p, L' k = L k) → SameSides S S' →
    (List.range p).foldlM (fun M k => putReaCurve nel M (L k)) S = .ok A → (List.range p).foldlM (fun M k => putReaCurve nel M (L' k)) S' = .ok A' →
    SameSides A A' ∧ Outer S A ∧ Outer S' A' := by
  intro p
  induction p with
  | zero =>
    intro S S' A A' _ hS h h'
    cases h
    cases h'
    exact ⟨hS, ⟨rfl, rfl⟩, rfl, rfl⟩
  | succ p ih =>
    intro S S' A A' hL hS h h'
    rw [List.range_succ, List.foldlM_append] at h h'
    obtain ⟨B, hB, h⟩ := py_bind.mp h
    obtain ⟨B', hB', h'⟩ := py_bind.mp h'
    simp only [List.foldlM_cons, List.foldlM_nil, bind_pure] at h h'
    obtain ⟨hs, ho, ho'⟩ := ih S S' B B' (fun k hk => hL k (by omega)) hS hB hB'
    rw [hL p (by omega)] at h'
    obtain ⟨i, k, v, t, t', hi, rfl, rfl, _, _, ht⟩ := putReaCurve_cut (List.prefix_refl _) hs.len h h'
    rw [ht rfl]
    refine ⟨⟨by simpa using hs.len, ?_⟩, ho.trans ⟨rfl, by simp⟩, ho'.trans ⟨rfl, by simp⟩⟩
    intro j hj
    have hj : j < B.elem.length := by simpa using hj
    rw [el_modify _ _ _ _ hj, el_modify _ _ _ _ (by rw [hs.len]; exact hj)]
    obtain ⟨e1, e2, e3⟩ := hs.el j hj
    by_cases hji : j = i
    · rw [if_pos hji, if_pos hji]
      unfold Elem.setCurve
      dsimp only
      rw [e1, e2, e3]
      exact ⟨rfl, rfl, rfl⟩
    · rw [if_neg hji, if_neg hji]
      exact ⟨e1, e2, e3⟩

/-- What is left of the mesh `M` in a file that lost its end: `M'`. -/
structure Remains (M M' : HexaData F64) : Prop where
  ndim : M'.ndim = M.ndim
  nel : M'.nel = M.nel
  len : M.elem.length = M.nel ∧ M'.elem.length = M.nel
  pos : ∀ i < M.nel, (M'.el i).pos = (M.el i).pos
  /-- either all curved edges were read, one of them possibly with a shorter type, or the number of them was cut and read as zero -/
  curves : (M'.ncurv = M.ncurv ∧ ∃ i0 k0, ∀ i < M.nel, (M'.el i).curv = (M.el i).curv ∧ ∀ k, (M'.el i).ccurv k = (M.el i).ccurv k ∨
      i = i0 ∧ k = k0 ∧ (M'.el i).ccurv k ≠ [] ∧ (M'.el i).ccurv k <+: (M.el i).ccurv k) ∨
    M'.ncurv = 0 ∧ ∀ i < M.nel, ∀ k, (M'.el i).ccurv k = [] ∧ ∀ j, (M'.el i).curv k j = 0
  /-- if conditions were read then the curved edges are complete -/
  whole : 0 < M'.nbc → 0 < M.nel → M'.ncurv = M.ncurv ∧ ∀ i < M.nel, (M'.el i).curv = (M.el i).curv ∧ (M'.el i).ccurv = (M.el i).ccurv
  /-- all conditions are the same, only the last number of the last one can differ -/
  bcs : ∀ i < M.nel, ∀ b < M'.nbc, b < M.nbc → ∀ f < 2 * M.ndim, M'.bc i b f = M.bc i b f ∨
    i + 1 = M.nel ∧ b + 1 = M'.nbc ∧ f + 1 = 2 * M.ndim ∧ ∃ x, M'.bc i b f = { M.bc i b f with p7 := x }

/-- The mesh before the curved edges are read. -/
def sideStart (native : Endian) (nd nel nbc n : Nat) (ps : List (Arr F64)) : HexaData F64 :=
  let M : HexaData F64 := HexaData.new native nd nel ⟨2, 2, nd - 1, true⟩ ⟨nd, 0, 0, 0, 0⟩ nbc
  { M with ncurv := n, elem := M.elem.zipWith (fun el p => { el with pos := p }) ps }

theorem sideStart_length (native : Endian) (nd nel nbc n : Nat) (ps : List (Arr F64)) (hp : ps.length = nel) :
    (sideStart native nd nel nbc n ps).elem.length = nel := by
  simp [sideStart, HexaData.new, hp]

theorem sideStart_el (native : Endian) (nd nel nbc n : Nat) (ps : List (Arr F64)) (hp : ps.length = nel) (i : Nat) (hi : i < nel) :
    (sideStart native nd nel nbc n ps).el i = { (Elem.new 0 0 0 2 2 (nd - 1) nbc : Elem F64) with pos := ps.getD i ⟨0, 0, 0, 0, fun _ _ _ _ => 0⟩ } := by
  unfold HexaData.el
  have : i < ps.length := by omega
  simp [sideStart, HexaData.new, hi, this]

theorem readSides_inv {native : Endian} {nd nel nbc : Nat} {ps : List (Arr F64)} {ls : List Text} {M : HexaData F64}
    (h : readSides native nd nel nbc ps ls = .ok M) : ∃ (nc : Int) (A : HexaData F64), intWord (ls.getD 1 []) = .ok nc ∧
      (List.range nc.toNat).foldlM (fun M k => putReaCurve nel M (ls.getD (2 + k) [])) (sideStart native nd nel nbc nc.toNat ps) = .ok A ∧
      readFaces nd nel nbc A (ls.drop (2 + nc.toNat + 1)) = .ok M := by
  unfold readSides at h
  obtain ⟨nc, h1, h⟩ := py_bind.mp h
  obtain ⟨A, h2, h⟩ := py_bind.mp h
  exact ⟨nc, A, h1, h2, h⟩

theorem foldlM_each {nel : Nat} (L : Nat → Text) : ∀ (p : Nat) (S A : HexaData F64),
    (List.range p).foldlM (fun M k => putReaCurve nel M (L k)) S = .ok A → ∀ k < p, L k ≠ [] := by
  intro p
  induction p with
  | zero => intro S A _ k hk; omega
  | succ p ih =>
    intro S A h k hk
    rw [List.range_succ, List.foldlM_append] at h
    obtain ⟨B, hB, h⟩ := py_bind.mp h
    simp only [List.foldlM_cons, List.foldlM_nil, bind_pure] at h
    by_cases hkp : k = p
    · subst hkp
      exact putReaCurve_ne h
    · exact ih S B hB k (by omega)

theorem fold_pos {nel : Nat} (L : Nat → Text) : ∀ (p : Nat) (S A : HexaData F64),
    (List.range p).foldlM (fun M k => putReaCurve nel M (L k)) S = .ok A →
    A.elem.length = S.elem.length ∧ ∀ i < S.elem.length, (A.el i).pos = (S.el i).pos := by
  intro p
  induction p with
  | zero =>
    intro S A h
    cases h
    exact ⟨rfl, fun _ _ => rfl⟩
  | succ p ih =>
    intro S A h
    rw [List.range_succ, List.foldlM_append] at h
    obtain ⟨B, hB, h⟩ := py_bind.mp h
    simp only [List.foldlM_cons, List.foldlM_nil, bind_pure] at h
    obtain ⟨hl, he⟩ := ih S B hB
    obtain ⟨_, _, _, _, _, _, _, i, k, t, _, _, _, _, _, _, _, _, _, _, rfl⟩ := putReaCurve_inv h
    refine ⟨by simpa using hl, fun j hj => ?_⟩
    rw [el_modify _ _ _ _ (by omega), ← he j hj]
    split <;> rfl

theorem sideStart_same (native : Endian) (nd nel nbc nbc' n n' : Nat) (ps : List (Arr F64)) (hp : ps.length = nel) :
    SameSides (sideStart native nd nel nbc n ps) (sideStart native nd nel nbc' n' ps) := by
  refine ⟨by rw [sideStart_length _ _ _ _ _ _ hp, sideStart_length _ _ _ _ _ _ hp], fun i hi => ?_⟩
  rw [sideStart_length _ _ _ _ _ _ hp] at hi
  rw [sideStart_el _ _ _ _ _ _ hp i hi, sideStart_el _ _ _ _ _ _ hp i hi]
  exact ⟨rfl, rfl, rfl⟩

theorem readSides_crop {native : Endian} {nd nel nbc nbc' K : Nat} {ps : List (Arr F64)} {ls ls' : List Text} {M M' : HexaData F64}
    (hc : Cropped K ls ls') (hp : ps.length = nel) (hnd : 0 < nd) (h : readSides native nd nel nbc ps ls = .ok M)
    (h' : readSides native nd nel nbc' ps ls' = .ok M') : 1 ≤ K ∧ Remains M M' ∧ M'.nbc = nbc' ∧ M.nbc = nbc := by
  obtain ⟨nc, A, h1, h2, h3⟩ := readSides_inv h
  obtain ⟨nc', A', g1, g2, g3⟩ := readSides_inv h'
  have hK : 1 ≤ K := hc.le _ (intWord_ne g1)
  have hcl : ∀ k < nc'.toNat, 2 + k ≤ K := fun k hk => hc.le _ (foldlM_each (fun k => ls'.getD (2 + k) []) _ _ _ g2 k hk)
  obtain ⟨-, oA, -⟩ := fold_curves (fun k => ls.getD (2 + k) []) (fun k => ls.getD (2 + k) []) _ _ _ _ _ (fun _ _ => rfl)
    ⟨rfl, fun _ _ => ⟨rfl, rfl, rfl⟩⟩ h2 h2
  obtain ⟨-, oA', -⟩ := fold_curves (fun k => ls'.getD (2 + k) []) (fun k => ls'.getD (2 + k) []) _ _ _ _ _ (fun _ _ => rfl)
    ⟨rfl, fun _ _ => ⟨rfl, rfl, rfl⟩⟩ g2 g2
  have lA : A.elem.length = nel := by rw [oA.2, sideStart_length _ _ _ _ _ _ hp]
  have lA' : A'.elem.length = nel := by rw [oA'.2, sideStart_length _ _ _ _ _ _ hp]
  obtain ⟨m1, m2, m3, m4⟩ := readFaces_inv h3 lA
  obtain ⟨n1, n2, n3, n4⟩ := readFaces_inv g3 lA'
  have dM : M.ndim = nd ∧ M.nel = nel ∧ M.nbc = nbc ∧ M.ncurv = nc.toNat := by
    rw [m1, oA.1]
    exact ⟨rfl, rfl, rfl, rfl⟩
  have dM' : M'.ndim = nd ∧ M'.nel = nel ∧ M'.nbc = nbc' ∧ M'.ncurv = nc'.toNat := by
    rw [n1, oA'.1]
    exact ⟨rfl, rfl, rfl, rfl⟩
  have hbl : ∀ i < nel, ∀ b < nbc', ∀ f < 2 * nd, 2 + nc'.toNat + 1 + ((1 + nel * (2 * nd)) * b + 1 + 2 * nd * i + f) ≤ K := by
    intro i hi b hb f hf
    have := readBC_ne (n4 i hi b hb f hf)
    rw [getD_drop] at this
    exact hc.le _ this
  have hfirst : 0 < nbc' → 0 < nel → 2 + nc'.toNat + 1 + 1 ≤ K := by
    intro hb hi
    have := hbl 0 hi 0 hb 0 (by omega)
    omega
  refine ⟨hK, ?_, dM'.2.2.1, dM.2.2.1⟩
  by_cases hK1 : K = 1
  · have hn' : nc'.toNat = 0 := by
      by_contra hne
      have := hcl 0 (by omega)
      omega
    have hnone : ¬ (0 < nbc' ∧ 0 < nel) := fun h => by have := hfirst h.1 h.2; omega
    have eA' : A' = sideStart native nd nel nbc' nc'.toNat ps := by
      rw [hn', List.range_zero, List.foldlM_nil] at g2
      rw [hn']
      exact (Except.ok.inj g2).symm
    have posM : ∀ i < nel, (A.el i).pos = ((sideStart native nd nel nbc nc.toNat ps).el i).pos := by
      exact fun i hi => (fold_pos (fun k => ls.getD (2 + k) []) _ _ _ h2).2 i (by rw [sideStart_length _ _ _ _ _ _ hp]; exact hi)
    refine ⟨by rw [dM.1, dM'.1], by rw [dM.2.1, dM'.2.1], by rw [m2, n2, dM.2.1]; exact ⟨rfl, rfl⟩, ?_, .inr ⟨by rw [dM'.2.2.2, hn'], ?_⟩, ?_, ?_⟩
    · intro i hi
      rw [dM.2.1] at hi
      rw [(m3 i hi).1, (n3 i hi).1, posM i hi, eA', sideStart_el _ _ _ _ _ _ hp i hi, sideStart_el _ _ _ _ _ _ hp i hi]
    · intro i hi k
      rw [dM.2.1] at hi
      rw [(n3 i hi).2.1, (n3 i hi).2.2, eA', sideStart_el _ _ _ _ _ _ hp i hi]
      exact ⟨rfl, fun _ => rfl⟩
    · intro hb hn
      rw [dM'.2.2.1] at hb
      rw [dM.2.1] at hn
      exact absurd ⟨hb, hn⟩ hnone
    · intro i hi b hb
      rw [dM'.2.2.1] at hb
      rw [dM.2.1] at hi
      exact absurd ⟨by omega, by omega⟩ hnone
  · rw [hc.before 1 (by omega), h1] at g1
    cases g1
    have hbcs : ∀ i < nel, ∀ b < nbc', b < nbc → ∀ f < 2 * nd, M'.bc i b f = M.bc i b f ∨
        i + 1 = nel ∧ b + 1 = nbc' ∧ f + 1 = 2 * nd ∧ ∃ x, M'.bc i b f = { M.bc i b f with p7 := x } := by
      intro i hi b hb hb' f hf
      have e := m4 i hi b hb' f hf
      have e' := n4 i hi b hb f hf
      have hle := hbl i hi b hb f hf
      rw [getD_drop] at e e'
      by_cases hlt : 2 + nc.toNat + 1 + ((1 + nel * (2 * nd)) * b + 1 + 2 * nd * i + f) < K
      · rw [hc.before _ hlt, e] at e'
        exact .inl (Except.ok.inj e').symm
      · refine .inr ⟨?_, ?_, ?_, ?_⟩
        · by_contra hne
          have := hbl (i + 1) (by omega) b hb f hf
          rw [Nat.mul_add] at this
          omega
        · by_contra hne
          have := hbl i hi (b + 1) (by omega) f hf
          rw [Nat.mul_add] at this
          generalize (1 + nel * (2 * nd)) * b = u at *
          generalize nel * (2 * nd) = v at *
          omega
        · by_contra hne
          have := hbl i hi b hb (f + 1) (by omega)
          omega
        · have hKe : 2 + nc.toNat + 1 + ((1 + nel * (2 * nd)) * b + 1 + 2 * nd * i + f) = K := by omega
          rw [hKe] at e e'
          exact readBC_cut hc.here e e'
    have hsame := sideStart_same native nd nel nbc nbc' nc.toNat nc.toNat ps hp
    by_cases hall : ∀ k < nc.toNat, ls'.getD (2 + k) [] = ls.getD (2 + k) []
    · obtain ⟨sA, -, -⟩ := fold_curves (fun k => ls.getD (2 + k) []) (fun k => ls'.getD (2 + k) []) _ _ _ _ _ hall hsame h2 g2
      have hel : ∀ i < nel, (M'.el i).pos = (M.el i).pos ∧ (M'.el i).curv = (M.el i).curv ∧ (M'.el i).ccurv = (M.el i).ccurv := by
        intro i hi
        have := sA.el i (by omega)
        rw [(m3 i hi).1, (m3 i hi).2.1, (m3 i hi).2.2, (n3 i hi).1, (n3 i hi).2.1, (n3 i hi).2.2]
        exact this
      refine ⟨by rw [dM.1, dM'.1], by rw [dM.2.1, dM'.2.1], by rw [m2, n2, dM.2.1]; exact ⟨rfl, rfl⟩, ?_, .inl ⟨by rw [dM.2.2.2, dM'.2.2.2], 0, 0, ?_⟩, ?_, ?_⟩
      · rw [dM.2.1]; exact fun i hi => (hel i hi).1
      · rw [dM.2.1]; exact fun i hi => ⟨(hel i hi).2.1, fun k => .inl (by rw [(hel i hi).2.2])⟩
      · rw [dM.2.1]; exact fun _ _ => ⟨by rw [dM.2.2.2, dM'.2.2.2], fun i hi => (hel i hi).2⟩
      · rw [dM.2.1, dM'.2.2.1, dM.2.2.1, dM.1]; exact hbcs
    · push Not at hall
      obtain ⟨k, hk, hne⟩ := hall
      have hkK : 2 + k = K := by
        have := hcl k hk
        by_contra h
        exact hne (hc.before _ (by omega))
      have hkn : nc.toNat = k + 1 := by
        by_contra h
        have := hcl (k + 1) (by omega)
        omega
      have hnone : ¬ (0 < nbc' ∧ 0 < nel) := fun h => by have := hfirst h.1 h.2; omega
      have h2' := h2
      have g2' := g2
      generalize sideStart native nd nel nbc nc.toNat ps = S at *
      generalize sideStart native nd nel nbc' nc.toNat ps = S' at *
      rw [hkn, List.range_succ, List.foldlM_append] at h2' g2'
      obtain ⟨B, hB, h2'⟩ := py_bind.mp h2'
      obtain ⟨B', hB', g2'⟩ := py_bind.mp g2'
      simp only [List.foldlM_cons, List.foldlM_nil, bind_pure] at h2' g2'
      obtain ⟨sB, -, -⟩ := fold_curves (fun k => ls.getD (2 + k) []) (fun k => ls'.getD (2 + k) []) k _ _ _ _
        (fun j hj => hc.before _ (by omega)) hsame hB hB'
      have hpre : ls'.getD (2 + k) [] <+: ls.getD (2 + k) [] := by rw [hkK]; exact hc.here
      obtain ⟨i0, k0, v, t, t', hi0, rfl, rfl, ht1, ht2, -⟩ := putReaCurve_cut hpre sB.len h2' g2'
      have lB : B.elem.length = nel := by simpa using lA
      have lB' : B'.elem.length = nel := by simpa using lA'
      have hel : ∀ i < nel, (M'.el i).pos = (M.el i).pos ∧ (M'.el i).curv = (M.el i).curv ∧ ∀ k, (M'.el i).ccurv k = (M.el i).ccurv k ∨
          i = i0 ∧ k = k0 ∧ (M'.el i).ccurv k ≠ [] ∧ (M'.el i).ccurv k <+: (M.el i).ccurv k := by
        intro i hi
        have := sB.el i (by omega)
        rw [(m3 i hi).1, (m3 i hi).2.1, (m3 i hi).2.2, (n3 i hi).1, (n3 i hi).2.1, (n3 i hi).2.2]
        rw [el_modify _ _ _ _ (by omega), el_modify _ _ _ _ (by omega)]
        obtain ⟨e1, e2, e3⟩ := this
        by_cases hii : i = i0
        · rw [if_pos hii, if_pos hii]
          unfold Elem.setCurve
          dsimp only
          rw [e1, e2, e3]
          refine ⟨rfl, rfl, fun j => ?_⟩
          by_cases hj : j = k0
          · rw [if_pos hj, if_pos hj]
            exact .inr ⟨hii, hj, ht1, ht2⟩
          · rw [if_neg hj, if_neg hj]
            exact .inl rfl
        · rw [if_neg hii, if_neg hii]
          exact ⟨e1, e2, fun j => .inl (by rw [e3])⟩
      refine ⟨by rw [dM.1, dM'.1], by rw [dM.2.1, dM'.2.1], by rw [m2, n2, dM.2.1]; exact ⟨rfl, rfl⟩, ?_, .inl ⟨by rw [dM.2.2.2, dM'.2.2.2], i0, k0, ?_⟩, ?_, ?_⟩
      · rw [dM.2.1]; exact fun i hi => (hel i hi).1
      · rw [dM.2.1]; exact fun i hi => (hel i hi).2
      · rw [dM.2.1, dM'.2.2.1]
        exact fun hb hn => absurd ⟨hb, hn⟩ hnone
      · rw [dM.2.1, dM'.2.2.1, dM.2.2.1, dM.1]; exact hbcs

theorem mapM_congr_mem {α β : Type} (f g : α → Py β) : ∀ l : List α, (∀ x ∈ l, f x = g x) → l.mapM f = l.mapM g
  | [], _ => rfl
  | a :: l, h => by
    rw [List.mapM_cons, List.mapM_cons, h a (by simp), mapM_congr_mem f g l fun x hx => h x (List.mem_cons_of_mem _ hx)]

theorem readPos_congr (nd : Nat) (ls ls' : List Text) (h : ∀ k < geoLines nd, ls'.getD (1 + k) [] = ls.getD (1 + k) []) : readPos nd ls' = readPos nd ls := by
  unfold readPos
  have : (List.range (geoLines nd)).mapM (fun k => readQuad (k % nd) (ls'.getD (1 + k) [])) =
      (List.range (geoLines nd)).mapM (fun k => readQuad (k % nd) (ls.getD (1 + k) [])) := by
    apply mapM_congr_mem
    intro k hk
    rw [h k (List.mem_range.mp hk)]
  rw [this]

theorem readMesh_crop {native : Endian} {nd nel nbc nbc' K : Nat} {ls ls' : List Text} {M M' : HexaData F64}
    (hc : Cropped K ls ls') (hnd : 0 < nd) (h : readMesh native nd nel nbc ls = .ok M)
    (h' : readMesh native nd nel nbc' ls' = .ok M') : Remains M M' ∧ M'.nbc = nbc' ∧ M.nbc = nbc := by
  unfold readMesh at h h'
  dsimp only at h h'
  obtain ⟨ps, hps, h⟩ := py_bind.mp h
  obtain ⟨ps', hps', h'⟩ := py_bind.mp h'
  obtain ⟨_, _, g1, -⟩ := readSides_inv h'
  have hK := hc.le _ (by rw [← getD_drop]; exact intWord_ne g1)
  have hlen : ps.length = nel := by
    have := (mapM_ok_inv _ _ _ hps).length_eq
    simpa using this.symm
  have e : (List.range nel).mapM (fun i => readPos nd (ls'.drop ((1 + geoLines nd) * i))) =
      (List.range nel).mapM (fun i => readPos nd (ls.drop ((1 + geoLines nd) * i))) := by
    apply mapM_congr_mem
    intro i hi
    apply readPos_congr
    intro k hk
    rw [getD_drop, getD_drop]
    apply hc.before
    have hi := List.mem_range.mp hi
    have : (1 + geoLines nd) * (i + 1) ≤ (1 + geoLines nd) * nel := Nat.mul_le_mul_left _ hi
    rw [Nat.mul_add] at this
    omega
  rw [e, hps] at hps'
  cases hps'
  obtain ⟨-, hr⟩ := readSides_crop (hc.drop _ (by omega)) hlen hnd h h'
  exact hr

theorem readLines_crop {native : Endian} {nbc nbc' K : Nat} {ls ls' : List Text} {M M' : HexaData F64} (hc : Cropped K ls ls')
    (h : readLines native nbc ls = .ok M) (h' : readLines native nbc' ls' = .ok M') : Remains M M' ∧ M'.nbc = nbc' ∧ M.nbc = nbc := by
  obtain ⟨nd, npar, nscal, nsw, nel, h0, h1, h2, h3, h4, h5, h6⟩ := readLines_inv h
  obtain ⟨nd', npar', nscal', nsw', nel', g0, g1, g2, g3, g4, g5, g6⟩ := readLines_inv h'
  have hK : 4 + npar'.toNat + (1 + nscal'.toNat) + (1 + nsw'.toNat) + 3 ≤ K := by
    have g := g6
    unfold readMesh at g
    dsimp only at g
    obtain ⟨_, _, g⟩ := py_bind.mp g
    obtain ⟨_, _, g, -⟩ := readSides_inv g
    have := hc.le _ (by rw [← getD_drop, ← getD_drop]; exact intWord_ne g)
    omega
  rw [hc.before _ (by omega), h1] at g1; cases g1
  rw [hc.before _ (by omega), h2] at g2; cases g2
  rw [hc.before _ (by omega), h3] at g3; cases g3
  rw [hc.before _ (by omega), h4] at g4; cases g4
  rw [hc.before _ (by omega), h5] at g5; cases g5
  exact readMesh_crop (hc.drop _ hK) (by omega) h6 g6

/-- **C121** in part: a `.rea` file that can be read loses its end. If what is left can still be read then the number of elements, the dimension
and all coordinates are those of the complete file, and so are all conditions that are returned, except possibly the last number of the last one;
the curved edges are complete if there are any conditions. Nothing is assumed about the text. -/
theorem C121_partial (native : Endian) (s : Text) (m : Nat) (M M' : HexaData F64) (h : readrea native s = .ok M)
    (h' : readrea native (s.take m) = .ok M') : Remains M M' := by
  obtain ⟨K, hc⟩ := linesT_crop s m
  exact (readLines_crop hc h h').1

end Pymech
