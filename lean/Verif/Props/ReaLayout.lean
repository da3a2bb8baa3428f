import Verif.Props.Re2Layout
import Verif.Props.Rea

/-!
# The layout of `.rea` files: C100
-/

set_option autoImplicit false

namespace Pymech

namespace Spec

/-- An integer in decimal. -/
def intText (n : Int) : Text := (if n < 0 then ['-'] else []) ++ Nat.toDigits 10 n.natAbs

/-- The integer `n`, right justified in `w` columns. -/
def IntColumn (w : Nat) (n : Int) (t : Text) : Prop := t.length = w ∧ ∃ k, t = List.replicate k ' ' ++ intText n

/-- The number `x` with `p + 1` significant digits, right justified in `w` columns. -/
def FloatColumn (p w : Nat) (x : F64) (t : Text) : Prop :=
  t.length = w ∧ ∃ k s y, t = List.replicate k ' ' ++ s ∧ pyFloat s = some y ∧ Printed p x y

/-- The numbers `xs` in successive columns. -/
def FloatColumns (p w : Nat) : List F64 → Text → Prop
  | [], l => l = []
  | x :: xs, l => ∃ t r, l = t ++ r ∧ FloatColumn p w x t ∧ FloatColumns p w xs r

/-- A line that starts with the number `n`. -/
def Counts (L : List Text) (j n : Nat) : Prop := ∃ k r, L[j]? = some (List.replicate k ' ' ++ Nat.toDigits 10 n ++ ' ' :: r)

/-- A curved edge: numbers of edge and element, five parameters, type. -/
def CurveLine (nel i k : Nat) (p : List F64) (c : Name) (l : Text) : Prop :=
  ∃ a b t z, l = a ++ b ++ t ++ z ∧ Column (if nel < 10 ^ 3 then 3 else 2) (k + 1) a ∧
    Column (if nel < 10 ^ 3 then 3 else if nel < 10 ^ 6 then 6 else 10) (i + 1) b ∧ FloatColumns 6 14 p t ∧
    z = List.replicate (2 - c.length) ' ' ++ c

/-- A boundary condition: type, two numbers (only the first one from 1000 elements on, and below a million), five parameters. -/
def ConditionLine (nel : Nat) (c : Name) (own face : Int) (p : List F64) (l : Text) : Prop :=
  ∃ a b t, l = [' '] ++ c ++ List.replicate (2 - c.length) ' ' ++ [' '] ++ a ++ b ++ t ∧
    (nel < 10 ^ 3 → IntColumn 3 own a ∧ IntColumn 3 face b ∧ FloatColumns 6 14 p t) ∧
    (10 ^ 3 ≤ nel → nel < 10 ^ 6 → IntColumn 6 own a ∧ b = [] ∧ FloatColumns 6 14 p t) ∧
    (10 ^ 6 ≤ nel → IntColumn 11 own a ∧ IntColumn 1 face b ∧ FloatColumns 11 18 p t)

/-- Number of lines of an element. -/
def elementLines (nd : Nat) : Nat := 1 + nd * (nd - 1)

/-- Line of the title of the curved edges. -/
def curvesLine (M : HexaData F64) : Nat := 144 + M.nel * elementLines M.ndim

/-- Line of the title of field `b`. -/
def fieldLine (M : HexaData F64) (C : List (Nat × Nat)) (b : Nat) : Nat :=
  curvesLine M + 2 + C.length + 1 + b * (1 + M.nel * (2 * M.ndim))

/-- Line after the boundary conditions. -/
def restLine (M : HexaData F64) (C : List (Nat × Nat)) : Nat := if M.nbc = 0 then fieldLine M C 0 + 1 else fieldLine M C M.nbc

/-- Line where the options begin that `writerea` always writes. -/
def tailLine (M : HexaData F64) (C : List (Nat × Nat)) : Nat := restLine M C + if M.nbc < 2 then 1 else 0

/-- The layout of a file with the lines `L` for the mesh `M`. -/
structure ReaLayout (M : HexaData F64) (f : Text) (L : List Text) (C : List (Nat × Nat)) : Prop where
  text : f = L.flatMap fun l => l ++ ['\n']
  lines : ∀ l ∈ L, '\n' ∉ l
  dims : L[2]? = some ("   ".toList ++ Nat.toDigits 10 M.ndim ++ " DIMENSIONAL RUN".toList)
  params : Counts L 3 118
  numbered : ∀ k < 118, ∃ x l r, L[4 + k]? = some l ∧ floatWord l 0 = .ok x ∧
    l.drop 15 = ['P'] ++ List.replicate (3 - (Nat.toDigits 10 (k + 1)).length) '0' ++ Nat.toDigits 10 (k + 1) ++ [':'] ++ r
  scalars : Counts L 122 4
  switches : Counts L 127 13
  mesh : ∃ r, L[142]? = some ("  ***** MESH DATA *****".toList ++ r)
  count : ∃ a, L[143]? = some ("  ".toList ++ a ++ [' '] ++ Nat.toDigits 10 M.ndim ++ [' '] ++ a ++ " NEL,NDIM,NELV".toList) ∧ Column 10 M.nel a
  title : ∀ i < M.nel, ∃ a, L[144 + i * elementLines M.ndim]? = some ("           ELEMENT ".toList ++ a ++ " [  1a]    GROUP 1".toList) ∧
    Column 10 (i + 1) a
  vertices : ∀ i < M.nel, ∀ d < M.ndim, ∀ s < M.ndim - 1, ∃ l, L[144 + i * elementLines M.ndim + 1 + M.ndim * s + d]? = some l ∧
    FloatColumns 6 14 (((vertexOrder.drop (4 * s)).take 4).map fun v => vertex (M.el i).pos d v.1 v.2.1 v.2.2) l
  curvesTitle : L[curvesLine M]? = some "  ***** CURVED SIDE DATA *****".toList
  curvesCount : Counts L (curvesLine M + 1) M.ncurv
  curved : Lists C fun i k => i < M.nel ∧ k < 12 ∧ (M.el i).ccurv k ≠ []
  curves : ∀ r i k, C[r]? = some (i, k) → ∃ l, L[curvesLine M + 2 + r]? = some l ∧
    CurveLine M.nel i k ((List.range 5).map fun j => (M.el i).curv k j) ((M.el i).ccurv k) l
  bcTitle : L[curvesLine M + 2 + C.length]? = some "  ***** BOUNDARY CONDITIONS *****".toList
  fluid : L[fieldLine M C 0]? = some "  ***** FLUID BOUNDARY CONDITIONS *****".toList
  thermal : 1 < M.nbc → L[fieldLine M C 1]? = some "  ***** THERMAL BOUNDARY CONDITIONS *****".toList
  passive : ∀ b, 1 < b → b < M.nbc → ∃ k, L[fieldLine M C b]? =
    some ("  ***** PASSIVE SCALAR ".toList ++ List.replicate k ' ' ++ Nat.toDigits 10 (b - 1) ++ " BOUNDARY CONDITIONS *****".toList)
  empty : ∀ b < M.nbc, ∀ i < M.nel, ∀ k < 2 * M.ndim, (M.bc i b k).typ = [] → ∃ l,
    L[fieldLine M C b + 1 + i * (2 * M.ndim) + k]? = some l ∧ ConditionLine M.nel ['E'] (i + 1) (k + 1) (bcParams (M.bc i b k)) l
  conditions : ∀ b < M.nbc, ∀ i < M.nel, ∀ k < 2 * M.ndim, (M.bc i b k).typ ≠ [] → ∃ l,
    L[fieldLine M C b + 1 + i * (2 * M.ndim) + k]? = some l ∧
      ConditionLine M.nel (M.bc i b k).typ (M.bc i b k).own (M.bc i b k).ownFace (bcParams (M.bc i b k)) l
  noThermal : M.nbc < 2 → L[restLine M C]? = some "  ***** NO THERMAL BOUNDARY CONDITIONS *****".toList
  initial : Counts L (tailLine M C) 0 ∧ Counts L (tailLine M C + 1) 7
  force : (∃ r, L[tailLine M C + 9]? = some ("  ***** DRIVE FORCE DATA *****".toList ++ r)) ∧ Counts L (tailLine M C + 10) 4
  variable_ : (∃ r, L[tailLine M C + 15]? = some (" ***** Variable Property Data *****".toList ++ r)) ∧ Counts L (tailLine M C + 16) 1
  history : L[tailLine M C + 18]? = some " ***** HISTORY AND INTEGRAL DATA *****".toList ∧ Counts L (tailLine M C + 19) 0
  output : L[tailLine M C + 20]? = some " ***** OUTPUT FIELD SPECIFICATION *****".toList ∧ Counts L (tailLine M C + 21) 6
  objects : L[tailLine M C + 28]? = some " ***** OBJECT SPECIFICATION *****".toList ∧ ∀ j < 4, Counts L (tailLine M C + 29 + j) 0
  size : L.length = tailLine M C + 33

end Spec

open Spec

theorem decI_intText (n : Int) : decI n = intText n := by
  unfold decI intText
  rw [decN_toDigits]
  split <;> rfl

theorem intColumn_rjust (w : Nat) (n : Int) (h : (decI n).length ≤ w) : IntColumn w n (rjust w (decI n)) :=
  ⟨rjust_length w _ h, w - (decI n).length, by rw [← decI_intText]; rfl⟩

theorem floatColumn_rjust (p w : Nat) (hp : 0 < p) (x : F64) (h : (fmtE 'e' p x).length ≤ w) : FloatColumn p w x (rjust w (fmtE 'e' p x)) :=
  ⟨rjust_length w _ h, w - (fmtE 'e' p x).length, fmtE 'e' p x, printed p x, rfl, pyFloat_fmtE 'e' (.inr rfl) p hp x, printed_spec p x⟩

theorem floatColumns_rjust (p w : Nat) (hp : 0 < p) (xs : List F64) (h : ∀ x ∈ xs, (fmtE 'e' p x).length ≤ w) :
    FloatColumns p w xs (xs.flatMap fun x => rjust w (fmtE 'e' p x)) := by
  induction xs with
  | nil => rfl
  | cons x xs ih =>
    exact ⟨_, _, List.flatMap_cons, floatColumn_rjust p w hp x (h x List.mem_cons_self), ih fun y hy => h y (List.mem_cons_of_mem _ hy)⟩

theorem floatColumns_e14 (xs : List F64) : FloatColumns 6 14 xs (xs.flatMap e14) :=
  floatColumns_rjust 6 14 (by norm_num) xs fun x _ => (fmtE_length 6 x).1

theorem floatColumns_e18 (xs : List F64) (h : ∀ x ∈ xs, Narrow x) : FloatColumns 11 18 xs (xs.flatMap e18) :=
  floatColumns_rjust 11 18 (by norm_num) xs fun x hx => narrow_length 11 x (h x hx)

theorem reaParams_length : reaParams.length = 118 := by decide +kernel

theorem topT_length (nel nd : Nat) : (topT nel nd).length = 144 := by
  unfold topT
  rw [List.length_append, List.length_append, List.length_append, reaParams_length]
  rfl

theorem decI_digits (n : Nat) : decI (n : Int) = Nat.toDigits 10 n := by rw [decI_nat, decN_toDigits]

theorem curveLine_ok (M : HexaData F64) (h : ReaMesh M) (i k : Nat) (hi : i < M.nel) (hk : k < 12) :
    CurveLine M.nel i k ((List.range 5).map fun j => (M.el i).curv k j) ((M.el i).ccurv k) (edgeT M (i, k)) := by
  have hs := h.size
  have l2 : (decN (k + 1)).length ≤ 2 := decN_length_le 1 _ (by omega)
  have ft := floatColumns_e14 ((List.range 5).map fun j => (M.el i).curv k j)
  rcases Nat.lt_or_ge M.nel (10 ^ 3) with h3 | h3
  · refine ⟨rjust 3 (decI (k + 1 : Nat)), rjust 3 (decI (i + 1 : Nat)), _, _, ?_, ?_, ?_, ft, rfl⟩
    · unfold edgeT reaCurve
      rw [if_pos h3]
      simp [List.range, List.range.loop, rjust]
    · rw [if_pos h3]
      exact column_rjust 3 _ (by omega)
    · rw [if_pos h3]
      exact column_rjust 3 _ (decN_length_le 2 _ (by omega))
  · rcases Nat.lt_or_ge M.nel (10 ^ 6) with h6 | h6
    · refine ⟨rjust 2 (decI (k + 1 : Nat)), rjust 6 (decI (i + 1 : Nat)), _, _, ?_, ?_, ?_, ft, rfl⟩
      · unfold edgeT reaCurve
        rw [if_neg (by omega), if_pos h6]
        simp [List.range, List.range.loop, rjust]
      · rw [if_neg (by omega)]
        exact column_rjust 2 _ (by omega)
      · rw [if_neg (by omega), if_pos h6]
        exact column_rjust 6 _ (decN_length_le 5 _ (by omega))
    · refine ⟨rjust 2 (decI (k + 1 : Nat)), rjust 10 (decI (i + 1 : Nat)), _, _, ?_, ?_, ?_, ft, rfl⟩
      · unfold edgeT reaCurve
        rw [if_neg (by omega), if_neg (by omega)]
        simp [List.range, List.range.loop, rjust]
      · rw [if_neg (by omega)]
        exact column_rjust 2 _ (by omega)
      · rw [if_neg (by omega), if_neg (by omega)]
        exact column_rjust 10 _ (decN_length_le 9 _ (by omega))

theorem conditionLine_ok (nel : Nat) (r : BC F64) (hc : FitsColumns nel r) :
    ConditionLine nel r.typ r.own r.ownFace (bcParams r) (reaBC nel r) := by
  have ft := floatColumns_e14 (bcParams r)
  rcases Nat.lt_or_ge nel (10 ^ 3) with h3 | h3
  · obtain ⟨o1, o2, o3, o4⟩ := hc.1 h3
    refine ⟨rjust 3 (decI r.own), rjust 3 (decI r.ownFace), (bcParams r).flatMap e14, ?_, fun _ => ⟨?_, ?_, ft⟩, fun _ _ => by omega, fun _ => by omega⟩
    · unfold reaBC bcParams
      rw [if_pos h3]
      simp [ljust]
    · exact intColumn_rjust 3 _ (decI_len 2 _ (by push_cast; omega) (by push_cast; omega))
    · exact intColumn_rjust 3 _ (decI_len 2 _ (by push_cast; omega) (by push_cast; omega))
  · rcases Nat.lt_or_ge nel (10 ^ 6) with h6 | h6
    · obtain ⟨o1, o2⟩ := hc.2.1 h3 h6
      refine ⟨rjust 6 (decI r.own), [], (bcParams r).flatMap e14, ?_, fun _ => by omega, fun _ _ => ⟨?_, rfl, ft⟩, fun _ => by omega⟩
      · unfold reaBC bcParams
        rw [if_neg (by omega), if_pos h6]
        simp [ljust]
      · exact intColumn_rjust 6 _ (decI_len 5 _ (by push_cast; omega) (by push_cast; omega))
    · obtain ⟨o1, o2, o3, o4, n3, n4, n5, n6, n7⟩ := hc.2.2 h6
      have fe := floatColumns_e18 (bcParams r) (by
        unfold bcParams
        simp only [List.mem_cons, List.not_mem_nil, or_false]
        rintro x (rfl | rfl | rfl | rfl | rfl) <;> assumption)
      refine ⟨rjust 11 (decI r.own), decI r.ownFace, (bcParams r).flatMap e18, ?_, fun _ => by omega, fun _ _ => by omega, fun _ => ⟨?_, ?_, fe⟩⟩
      · unfold reaBC bcParams
        rw [if_neg (by omega), if_neg (by omega)]
        simp [ljust]
      · exact intColumn_rjust 11 _ (decI_len 10 _ (by push_cast; omega) (by push_cast; omega))
      · have hl : (decI r.ownFace).length ≤ 1 := decI_len 0 _ (by push_cast; omega) (by push_cast; omega)
        have := List.length_pos_of_ne_nil (decI_ne_nil r.ownFace)
        exact ⟨by omega, 0, by rw [decI_intText]; rfl⟩

/-! ### The parts of the file -/

theorem fieldsT_length (M : HexaData F64) : (fieldsT M).length = if M.nbc = 0 then 1 else M.nbc * (1 + M.nel * (2 * M.ndim)) := by
  unfold fieldsT
  split
  · rfl
  · exact length_flatMap_range _ _ _ fun b _ => by simpa using fieldT_length M b

theorem geosT_length (M : HexaData F64) (h : M.ndim = 2 ∨ M.ndim = 3) :
    ((List.range M.nel).flatMap (geoT M)).length = M.nel * elementLines M.ndim := by
  refine length_flatMap_range _ _ _ fun i _ => ?_
  rw [geoT, reaGeo_length M.ndim i h, elementLines, geoLines, Nat.mul_comm]

theorem text_top (M : HexaData F64) (j : Nat) (hj : j < 144) : (reaText M)[j]? = (topT M.nel M.ndim)[j]? := by
  unfold reaText
  rw [List.getElem?_append_left (by rw [topT_length]; exact hj)]

theorem text_geo (M : HexaData F64) (h : M.ndim = 2 ∨ M.ndim = 3) (i k : Nat) (hi : i < M.nel) (hk : k < elementLines M.ndim) :
    (reaText M)[144 + (i * elementLines M.ndim + k)]? = (geoT M i)[k]? := by
  unfold reaText
  have hg := geosT_length M h
  rw [List.getElem?_append_right (by rw [topT_length]; omega), topT_length, Nat.add_sub_cancel_left,
    List.getElem?_append_left (by rw [hg]; exact row_lt hi hk), getElem?_flatMap_range M.nel _ _ ?_ i k hi hk]
  intro j _
  rw [geoT, reaGeo_length M.ndim j h, elementLines, geoLines, Nat.mul_comm]

theorem text_after (M : HexaData F64) (h : M.ndim = 2 ∨ M.ndim = 3) (j : Nat) :
    (reaText M)[curvesLine M + j]? = (curveTop M.ncurv ++ ((reaEdges M).map (edgeT M) ++ (bcTop :: (fieldsT M ++ restT M.nbc))))[j]? := by
  unfold reaText curvesLine
  have hg := geosT_length M h
  rw [List.getElem?_append_right (by rw [topT_length]; omega), topT_length, List.getElem?_append_right (by rw [hg]; omega), hg]
  congr 1
  omega

theorem text_edge (M : HexaData F64) (h : M.ndim = 2 ∨ M.ndim = 3) (r : Nat) (t : Nat × Nat) (hr : (reaEdges M)[r]? = some t) :
    (reaText M)[curvesLine M + 2 + r]? = some (edgeT M t) := by
  obtain ⟨hlt, -⟩ := List.getElem?_eq_some_iff.mp hr
  rw [Nat.add_assoc, text_after M h, List.getElem?_append_right (by unfold curveTop; simp),
    List.getElem?_append_left (by rw [List.length_map]; unfold curveTop; simpa using hlt), List.getElem?_map]
  have : 2 + r - (curveTop M.ncurv).length = r := by unfold curveTop; simp
  rw [this, hr]
  rfl

theorem text_bcs (M : HexaData F64) (h : M.ndim = 2 ∨ M.ndim = 3) (j : Nat) :
    (reaText M)[curvesLine M + 2 + (reaEdges M).length + j]? = (bcTop :: (fieldsT M ++ restT M.nbc))[j]? := by
  have e : curvesLine M + 2 + (reaEdges M).length + j = curvesLine M + (2 + ((reaEdges M).length + j)) := by omega
  rw [e, text_after M h, List.getElem?_append_right (by unfold curveTop; simp), List.getElem?_append_right (by rw [List.length_map]; unfold curveTop; simp)]
  congr 1
  rw [List.length_map]
  unfold curveTop
  simp

theorem text_field (M : HexaData F64) (h : M.ndim = 2 ∨ M.ndim = 3) (b k : Nat) (hb : b < M.nbc) (hk : k < 1 + M.nel * (2 * M.ndim)) :
    (reaText M)[fieldLine M (reaEdges M) b + k]? = (fieldT M b)[k]? := by
  have e : fieldLine M (reaEdges M) b + k = curvesLine M + 2 + (reaEdges M).length + (b * (1 + M.nel * (2 * M.ndim)) + k + 1) := by
    unfold fieldLine
    ring
  have hl := fieldsT_length M
  rw [if_neg (by omega)] at hl
  rw [e, text_bcs M h, List.getElem?_cons_succ, List.getElem?_append_left (by rw [hl]; exact row_lt hb hk)]
  unfold fieldsT
  rw [if_neg (by omega), getElem?_flatMap_range M.nbc (1 + M.nel * (2 * M.ndim)) _ (fun b _ => by simpa using fieldT_length M b) b k hb hk]

theorem text_rest (M : HexaData F64) (h : M.ndim = 2 ∨ M.ndim = 3) (j : Nat) :
    (reaText M)[restLine M (reaEdges M) + j]? = (restT M.nbc)[j]? := by
  have hl := fieldsT_length M
  have e : restLine M (reaEdges M) + j = curvesLine M + 2 + (reaEdges M).length + ((fieldsT M).length + j + 1) := by
    rw [hl]
    unfold restLine fieldLine
    split <;> omega
  rw [e, text_bcs M h, List.getElem?_cons_succ, List.getElem?_append_right (by omega), Nat.add_sub_cancel_left]

theorem text_tail (M : HexaData F64) (h : M.ndim = 2 ∨ M.ndim = 3) (j : Nat) :
    (reaText M)[tailLine M (reaEdges M) + j]? = reaTail[j]? := by
  unfold tailLine
  rw [Nat.add_assoc, text_rest M h]
  unfold restT
  split
  · rw [List.getElem?_append_right (by simp)]
    simp
  · simp

theorem text_length (M : HexaData F64) (h : M.ndim = 2 ∨ M.ndim = 3) : (reaText M).length = tailLine M (reaEdges M) + 33 := by
  have hg := geosT_length M h
  have hl := fieldsT_length M
  unfold reaText
  simp only [List.length_append, List.length_cons, List.length_map]
  rw [topT_length, hg, hl]
  unfold tailLine restLine fieldLine curvesLine restT curveTop
  have : reaTail.length = 33 := rfl
  rw [List.length_append, this]
  split <;> split <;> simp <;> omega

/-- The parameters are numbered. -/
theorem params_numbered : ∀ k < 118, ∃ x l r, reaParams[k]? = some l ∧ floatWord l 0 = .ok x ∧
    l.drop 15 = ['P'] ++ List.replicate (3 - (Nat.toDigits 10 (k + 1)).length) '0' ++ Nat.toDigits 10 (k + 1) ++ [':'] ++ r := by
  have key : ∀ k < 118, (∃ x, floatWord (reaParams.getD k []) 0 = .ok x) ∧ ((reaParams.getD k []).drop 15).take 5 =
      ['P'] ++ List.replicate (3 - (Nat.toDigits 10 (k + 1)).length) '0' ++ Nat.toDigits 10 (k + 1) ++ [':'] := by
    have h1 : ∀ k < 118, (floatWord (reaParams.getD k []) 0).isOk = true := by decide +kernel
    have h2 : ∀ k < 118, ((reaParams.getD k []).drop 15).take 5 =
      ['P'] ++ List.replicate (3 - (Nat.toDigits 10 (k + 1)).length) '0' ++ Nat.toDigits 10 (k + 1) ++ [':'] := by decide +kernel
    intro k hk
    refine ⟨?_, h2 k hk⟩
    have := h1 k hk
    cases hf : floatWord (reaParams.getD k []) 0 with
    | ok x => exact ⟨x, rfl⟩
    | error e => rw [hf] at this; exact absurd this (by simp [Except.isOk, Except.toBool])
  intro k hk
  obtain ⟨⟨x, hx⟩, ht⟩ := key k hk
  have hlt : k < reaParams.length := by rw [reaParams_length]; exact hk
  rw [List.getD_eq_getElem?_getD, List.getElem?_eq_getElem hlt, Option.getD_some] at hx ht
  refine ⟨x, _, (reaParams[k].drop 15).drop 5, List.getElem?_eq_getElem hlt, hx, ?_⟩
  rw [← ht, List.take_append_drop]

theorem counts_of (L : List Text) (j n k : Nat) (r : Text) (t : Text) (h : L[j]? = some t) (e : t = List.replicate k ' ' ++ Nat.toDigits 10 n ++ ' ' :: r) :
    Counts L j n := ⟨k, r, by rw [h, e]⟩

theorem vertices_ok (M : HexaData F64) (h : ReaMesh M) (i d s : Nat) (hd : d < M.ndim) (hs : s < M.ndim - 1) :
    ∃ l, (geoT M i)[1 + M.ndim * s + d]? = some l ∧
      FloatColumns 6 14 (((vertexOrder.drop (4 * s)).take 4).map fun v => vertex (M.el i).pos d v.1 v.2.1 v.2.2) l := by
  have key := floatColumns_e14 (((vertexOrder.drop (4 * s)).take 4).map fun v => vertex (M.el i).pos d v.1 v.2.1 v.2.2)
  refine ⟨_, ?_, key⟩
  unfold geoT
  generalize (M.el i).pos = a
  rcases h.dim with h2 | h3
  · rw [h2] at hd hs ⊢
    have : s = 0 := by omega
    subst this
    interval_cases d <;> simp [reaGeo, quadT, vertexOrder, vertex, endOf]
  · rw [h3] at hd hs ⊢
    have : s < 2 := by omega
    interval_cases s <;> interval_cases d <;> simp [reaGeo, quadT, vertexOrder, vertex, endOf]

/-- C100: the layout of a `.rea` file. -/
theorem C100 (M : HexaData F64) (h : ReaMesh M) : ∃ L C, ReaLayout M (writerea M).1 L C := by
  have hd := h.dim
  have hsz := h.size
  have hel : 0 < elementLines M.ndim := by unfold elementLines; omega
  have tail : ∀ j t, reaTail[j]? = some t → (reaText M)[tailLine M (reaEdges M) + j]? = some t := fun j t ht => by rw [text_tail M hd, ht]
  have cond : ∀ b < M.nbc, ∀ i < M.nel, ∀ k < 2 * M.ndim,
      (reaText M)[fieldLine M (reaEdges M) b + 1 + i * (2 * M.ndim) + k]? = some (bcT M b (i, k)) := by
    intro b hb i hi k hk
    have hlt := row_lt hi hk
    have e : fieldLine M (reaEdges M) b + 1 + i * (2 * M.ndim) + k = fieldLine M (reaEdges M) b + (i * (2 * M.ndim) + k + 1) := by omega
    rw [e, text_field M hd b _ hb (by omega), fieldT, List.getElem?_cons_succ, List.getElem?_map, getElem?_prod2 _ _ _ _ hi hk]
    rfl
  refine ⟨reaText M, reaEdges M, ?_⟩
  refine
    { text := ?_, lines := reaText_lines M h, dims := ?_, params := ?_, numbered := ?_, scalars := ?_, switches := ?_, mesh := ?_, count := ?_,
      title := ?_, vertices := ?_, curvesTitle := ?_, curvesCount := ?_, curved := ?_, curves := ?_, bcTitle := ?_, fluid := ?_, thermal := ?_,
      passive := ?_, empty := ?_, conditions := ?_, noThermal := ?_, initial := ?_, force := ?_, variable_ := ?_, history := ?_, output := ?_,
      objects := ?_, size := text_length M hd }
  · rw [writerea_ok M h, List.flatMap_def]
    rfl
  · rw [text_top M 2 (by norm_num)]
    show some ("   ".toList ++ decI M.ndim ++ " DIMENSIONAL RUN".toList) = _
    rw [decI_digits]
  · exact counts_of _ 3 118 9 "PARAMETERS FOLLOW".toList _ (by rw [text_top M 3 (by norm_num)]; rfl) (by decide)
  · intro k hk
    obtain ⟨x, l, r, h1, h2, h3⟩ := params_numbered k hk
    refine ⟨x, l, r, ?_, h2, h3⟩
    have hpl := reaParams_length
    have hhl : (reaHead M.ndim).length = 4 := rfl
    rw [text_top M _ (by omega)]
    unfold topT
    rw [List.getElem?_append_right (by omega), hhl, Nat.add_sub_cancel_left, List.getElem?_append_left (by omega), h1]
  · exact counts_of _ 122 4 6 " Lines of passive scalar data follows2 CONDUCT, 2RHOCP".toList _ (by rw [text_top M 122 (by norm_num)]; rfl) (by decide)
  · exact counts_of _ 127 13 9 "  LOGICAL SWITCHES FOLLOW".toList _ (by rw [text_top M 127 (by norm_num)]; rfl) (by decide)
  · exact ⟨"  6 lines are X,Y,Z;X,Y,Z. Columns corners 1-4;5-8".toList, by rw [text_top M 142 (by norm_num)]; rfl⟩
  · refine ⟨rjust 10 (decI M.nel), ?_, column_rjust 10 _ (decN_length_le 9 _ (by omega))⟩
    rw [text_top M 143 (by norm_num), ← decI_digits]
    rfl
  · intro i hi
    refine ⟨rjust 10 (decI (i + 1 : Nat)), ?_, column_rjust 10 _ (decN_length_le 9 _ (by omega))⟩
    have := text_geo M hd i 0 hi hel
    rw [Nat.add_zero] at this
    rw [this]
    rfl
  · intro i hi d hdd s hs
    obtain ⟨l, h1, h2⟩ := vertices_ok M h i d s hdd hs
    have hlt : 1 + M.ndim * s + d < elementLines M.ndim := by
      unfold elementLines
      rcases hd with h | h <;> rw [h] at hdd hs ⊢ <;> omega
    refine ⟨l, ?_, h2⟩
    have := text_geo M hd i (1 + M.ndim * s + d) hi hlt
    rw [h1] at this
    rw [← this]
    congr 1
    omega
  · have := text_after M hd 0
    rw [Nat.add_zero] at this
    rw [this]
    rfl
  · refine ⟨2 + (10 - (decI M.ncurv).length), "Curved sides follow IEDGE,IEL,CURVE(I),I=1,5, CCURVE".toList, ?_⟩
    rw [text_after M hd 1, ← decI_digits, List.replicate_add]
    simp [curveTop, rjust]
  · exact ⟨List.Pairwise.filter _ (prod2_sorted _ _), fun i k => mem_reaEdges M i k⟩
  · intro r i k hr
    have hm := (mem_reaEdges M i k).mp (List.mem_of_getElem? hr)
    exact ⟨_, text_edge M hd r _ hr, curveLine_ok M h i k hm.1 hm.2.1⟩
  · have := text_bcs M hd 0
    rw [Nat.add_zero] at this
    rw [this]
    rfl
  · have e : fieldLine M (reaEdges M) 0 = curvesLine M + 2 + (reaEdges M).length + 1 := by unfold fieldLine; omega
    rw [e, text_bcs M hd 1, List.getElem?_cons_succ]
    unfold fieldsT
    cases hn : M.nbc with
    | zero => rfl
    | succ n =>
      rw [if_neg (by omega), List.range_succ_eq_map, List.flatMap_cons]
      rfl
  · intro hb
    have := text_field M hd 1 0 hb (by omega)
    rw [Nat.add_zero] at this
    rw [this]
    rfl
  · intro b h1 hb
    have := text_field M hd b 0 hb (by omega)
    rw [Nat.add_zero] at this
    refine ⟨4 - (decI (b - 1 : Nat)).length, ?_⟩
    rw [this, fieldT, List.getElem?_cons_zero, Pymech.bcTitle, if_neg (by omega), if_neg (by omega), ← decI_digits]
    simp [rjust]
  · intro b hb i hi k hk he
    refine ⟨_, cond b hb i hi k hk, ?_⟩
    have := conditionLine_ok M.nel ((M.bc i b k).mark i k) (mark_fits h hi hb hk)
    have hm : (M.bc i b k).mark i k = { M.bc i b k with typ := nE, own := (i : Int) + 1, ownFace := (k : Int) + 1 } := by
      unfold BC.mark
      rw [if_pos he]
    rw [hm] at this
    unfold bcT
    dsimp only at this ⊢
    rw [hm]
    exact this
  · intro b hb i hi k hk he
    refine ⟨_, cond b hb i hi k hk, ?_⟩
    have := conditionLine_ok M.nel ((M.bc i b k).mark i k) (mark_fits h hi hb hk)
    have hm : (M.bc i b k).mark i k = M.bc i b k := by
      unfold BC.mark
      rw [if_neg he]
    rw [hm] at this
    unfold bcT
    dsimp only
    rw [hm]
    exact this
  · intro hb
    have := text_rest M hd 0
    rw [Nat.add_zero] at this
    rw [this, restT, if_pos hb]
    rfl
  · exact ⟨counts_of _ _ 0 4 "PRESOLVE/RESTART OPTIONS  *****".toList _ (tail 0 _ rfl) (by decide),
      counts_of _ _ 7 4 "        INITIAL CONDITIONS *****".toList _ (tail 1 _ rfl) (by decide)⟩
  · exact ⟨⟨" BODY FORCE, FLOW, Q".toList, tail 9 _ rfl⟩,
      counts_of _ _ 4 4 "                Lines of Drive force data follow".toList _ (tail 10 _ rfl) (by decide)⟩
  · exact ⟨⟨" Overrrides Parameter data.".toList, tail 15 _ rfl⟩, counts_of _ _ 1 4 "Lines follow.".toList _ (tail 16 _ rfl) (by decide)⟩
  · exact ⟨tail 18 _ rfl, counts_of _ _ 0 4 "  POINTS.  Hcode, I,J,H,IEL".toList _ (tail 19 _ rfl) (by decide)⟩
  · exact ⟨tail 20 _ rfl, counts_of _ _ 6 4 "SPECIFICATIONS FOLLOW".toList _ (tail 21 _ rfl) (by decide)⟩
  · refine ⟨tail 28 _ rfl, fun j hj => ?_⟩
    rw [Nat.add_assoc]
    interval_cases j
    · exact counts_of _ _ 0 8 "Surface Objects".toList _ (tail 29 _ rfl) (by decide)
    · exact counts_of _ _ 0 8 "Volume  Objects".toList _ (tail 30 _ rfl) (by decide)
    · exact counts_of _ _ 0 8 "Edge    Objects".toList _ (tail 31 _ rfl) (by decide)
    · exact counts_of _ _ 0 8 "Point   Objects".toList _ (tail 32 _ rfl) (by decide)

/-- Two elements, an arc on the fifth edge of the second one, two fields. -/
example : ∃ L C, ReaLayout Samples.reaMesh (writerea Samples.reaMesh).1 L C := C100 _ Samples.reaMesh_ok

example : reaEdges Samples.reaMesh = [(1, 4)] ∧ fieldLine Samples.reaMesh [(1, 4)] 1 = 175 ∧ tailLine Samples.reaMesh [(1, 4)] = 188 := by decide +kernel

end Pymech
