import Verif.Lemmas.WordsU
import Verif.Lemmas.Lines
import Verif.Lemmas.ReaRound
import Verif.Props.Numerals
import Verif.Props.Re2Layout

/-!
# C119: `readrea` on files of other programs

A `.rea` file is described by its lines: how many there are of each kind, and which of their words or columns hold numbers
or names. Everything else in the lines is arbitrary.
-/

set_option autoImplicit false

namespace Pymech

namespace Spec

/-- The word `w` denotes the number `x`, up to rounding. -/
def Num (w : Text) (x : F64) : Prop := ∃ neg q, DecWord w neg q ∧ Nearest neg q x

/-- The first word of the line is the integer `n`. -/
def FirstInt (l : Text) (n : Nat) : Prop := ∃ w ws, Words white l (w :: ws) ∧ IntWord w n

/-- The first word of the line is a number. -/
def FirstNum (l : Text) : Prop := ∃ w ws x, Words white l (w :: ws) ∧ Num w x

/-- The first four words of the line are the numbers `x 0, …, x 3`. -/
def Quad (l : Text) (x : Nat → F64) : Prop :=
  ∃ w0 w1 w2 w3 ws, Words white l (w0 :: w1 :: w2 :: w3 :: ws) ∧ Num w0 (x 0) ∧ Num w1 (x 1) ∧ Num w2 (x 2) ∧ Num w3 (x 3)

/-- Apart from white space at both ends the text is the word `w`. -/
def Padded (w t : Text) : Prop :=
  ∃ u v, t = u ++ w ++ v ∧ (∀ c ∈ u, white c = true) ∧ (∀ c ∈ v, white c = true) ∧ ∀ c ∈ w, white c = false

/-- `n` columns with the integer `i`. -/
def IntCols (n : Nat) (i : Int) (t : Text) : Prop := t.length = n ∧ ∃ w, Padded w t ∧ IntWord w i

/-- Groups of `n` columns with the numbers `xs`. -/
def NumCols (n : Nat) : List F64 → Text → Prop
  | [], t => t = []
  | x :: xs, t => ∃ a b, t = a ++ b ∧ a.length = n ∧ (∃ w, Padded w a ∧ Num w x) ∧ NumCols n xs b

/-- The title of the boundary conditions of a field. -/
def FieldTitle (l : Text) : Prop := ∃ ws, Words white l ws ∧ "BOUNDARY".toList ∈ ws.drop 2 ∧ "NO".toList ∉ ws

/-- The title that says that a field has no boundary conditions. -/
def NoFieldTitle (l : Text) : Prop := ∃ ws, Words white l ws ∧ "BOUNDARY".toList ∈ ws.drop 2 ∧ "NO".toList ∈ ws

/-- A curved edge. -/
structure Side where
  el : Nat
  edge : Nat
  par : Nat → F64
  typ : Name

/-- The line of a curved edge: its number, the number of the element, five parameters, and the type among the next three columns. -/
def CurveAt (nel : Nat) (c : Side) (l : Text) : Prop :=
  c.el < nel ∧ c.edge < 12 ∧ ∃ a b p t z, l = a ++ b ++ p ++ t ++ z ∧ IntCols (if nel < 10 ^ 3 then 3 else 2) (c.edge + 1) a ∧
    IntCols (if nel < 10 ^ 3 then 3 else if nel < 10 ^ 6 then 6 else 10) (c.el + 1) b ∧ NumCols 14 ((List.range 5).map c.par) p ∧
    (t.length = 3 ∨ t.length < 3 ∧ z = []) ∧ ∃ ws, Words white t (c.typ :: ws)

/-- The line of a boundary condition: a column, two columns for the name, a column, two integers (six columns without meaning from 1000
elements on, and below a million: the indices are those of element and face), five parameters. -/
def ConditionAt (nel i f : Nat) (r : BC F64) (l : Text) : Prop :=
  ∃ x n y a p z, l = [x] ++ n ++ [y] ++ a ++ p ++ z ∧ n.length = 2 ∧ Label 2 r.typ ∧ Padded r.typ n ∧
    (nel < 10 ^ 3 → ∃ a1 a2, a = a1 ++ a2 ∧ IntCols 3 r.own a1 ∧ IntCols 3 r.ownFace a2) ∧
    (10 ^ 3 ≤ nel → nel < 10 ^ 6 → a.length = 6 ∧ r.own = i + 1 ∧ r.ownFace = f + 1) ∧
    (10 ^ 6 ≤ nel → ∃ a1 a2, a = a1 ++ a2 ∧ IntCols 11 r.own a1 ∧ IntCols 1 r.ownFace a2) ∧
    NumCols (if nel < 10 ^ 6 then 14 else 18) (bcParams r) p

/-- The parts of a file. -/
structure ReaParts where
  /-- two lines of title -/
  head : Text × Text
  dims : Text
  npar : Text
  pars : List Text
  nscal : Text
  scals : List Text
  nswitch : Text
  switches : List Text
  /-- a line of scales, and the title of the mesh -/
  scales : Text × Text
  count : Text
  /-- the lines of the elements -/
  els : List (List Text)
  ctitle : Text
  ncurv : Text
  curves : List Text
  btitle : Text
  /-- title and lines of every field; there are no lines if the title says so -/
  fields : List (Text × Option (List Text))
  rest : List Text

/-- The lines of the file. -/
def ReaParts.lines (P : ReaParts) : List Text :=
  P.head.1 :: P.head.2 :: P.dims :: P.npar :: (P.pars ++ P.nscal :: (P.scals ++ P.nswitch :: (P.switches ++ P.scales.1 :: P.scales.2 ::
    P.count :: (P.els.flatten ++ P.ctitle :: P.ncurv :: (P.curves ++ P.btitle :: ((P.fields.flatMap fun f => f.1 :: f.2.getD []) ++ P.rest))))))

/-- The lines of the fields that have boundary conditions. -/
def ReaParts.given (P : ReaParts) : List (List Text) := P.fields.filterMap Prod.snd

/-- The lines that are no titles of fields. -/
def ReaParts.others (P : ReaParts) : List Text :=
  P.head.1 :: P.head.2 :: P.dims :: P.npar :: (P.pars ++ P.nscal :: (P.scals ++ P.nswitch :: (P.switches ++ P.scales.1 :: P.scales.2 ::
    P.count :: (P.els.flatten ++ P.ctitle :: P.ncurv :: (P.curves ++ P.btitle :: (P.given.flatten ++ P.rest))))))

/-- The file is well formed and says that there are `nel` elements in `nd` dimensions with the vertices `X i d z v` (element, coordinate,
layer, vertex within the layer), the curved edges `C`, and the boundary conditions `B b i f` (field, element, face). -/
structure ReaSays (P : ReaParts) (nd nel : Nat) (X : Nat → Nat → Nat → Nat → F64) (C : List Side) (B : Nat → Nat → Nat → BC F64) : Prop where
  dim : nd = 2 ∨ nd = 3
  dims : FirstInt P.dims nd
  npar : FirstInt P.npar P.pars.length
  pars : ∀ l ∈ P.pars, FirstNum l
  nscal : FirstInt P.nscal P.scals.length
  nswitch : FirstInt P.nswitch P.switches.length
  count : FirstInt P.count nel
  elements : P.els.length = nel
  vertices : ∀ i e, P.els[i]? = some e → ∃ t Q, e = t :: Q ∧ Q.length = (nd - 1) * nd ∧
    ∀ z < nd - 1, ∀ d < nd, ∃ l, Q[z * nd + d]? = some l ∧ Quad l (X i d z)
  ncurv : FirstInt P.ncurv P.curves.length
  curves : List.Forall₂ (CurveAt nel) C P.curves
  once : C.Pairwise fun a b => a.el = b.el → a.edge ≠ b.edge
  titles : ∀ t ls, (t, some ls) ∈ P.fields → FieldTitle t
  none : ∀ t, (t, none) ∈ P.fields → NoFieldTitle t
  conditions : ∀ b ls, P.given[b]? = some ls → ls.length = nel * (2 * nd) ∧
    ∀ i < nel, ∀ f < 2 * nd, ∃ l, ls[i * (2 * nd) + f]? = some l ∧ ConditionAt nel i f (B b i f) l
  others : ∀ l ∈ P.others, ¬ FieldTitle l

/-- The mesh is what the file says, with empty records in place of internal conditions without a partner. -/
structure ReaContent (P : ReaParts) (nd n : Nat) (X : Nat → Nat → Nat → Nat → F64) (C : List Side) (B : Nat → Nat → Nat → BC F64)
    (M : HexaData F64) : Prop where
  ndim : M.ndim = nd
  nel : M.nel = n
  nbc : M.nbc = P.given.length
  ncurv : M.ncurv = C.length
  var : M.var = ⟨nd, 0, 0, 0, 0⟩
  lr1 : M.lr1 = ⟨2, 2, nd - 1, true⟩
  len : M.elem.length = n
  shape : ∀ i < n, (M.el i).pos.n = 3 ∧ (M.el i).pos.lz = nd - 1 ∧ (M.el i).pos.ly = 2 ∧ (M.el i).pos.lx = 2
  pos : ∀ i < n, ∀ d < nd, ∀ z < nd - 1, (M.el i).pos.dat d z 0 0 = X i d z 0 ∧ (M.el i).pos.dat d z 0 1 = X i d z 1 ∧
    (M.el i).pos.dat d z 1 1 = X i d z 2 ∧ (M.el i).pos.dat d z 1 0 = X i d z 3
  plane : ∀ i < n, ∀ d z y x, nd ≤ d → (M.el i).pos.dat d z y x = 0
  curved : ∀ c ∈ C, (M.el c.el).ccurv c.edge = c.typ ∧ ∀ j < 5, (M.el c.el).curv c.edge j = c.par j
  straight : ∀ i < n, ∀ k, (∀ c ∈ C, c.el = i → c.edge ≠ k) → (M.el i).ccurv k = [] ∧ ∀ j, (M.el i).curv k j = 0
  rows : ∀ i < n, (M.el i).rows = P.given.length
  bcs : ∀ b < P.given.length, ∀ i < n, ∀ f < 2 * nd, M.bc i b f = if (B b i f).typ = nE ∧ (B b i f).p3.mag = 0 then BC.zero else B b i f

end Spec

open Spec

/-! ### Words and columns -/

theorem pyFloat_num {w : Text} {x : F64} (h : Num w x) : pyFloat w = some x := by
  obtain ⟨neg, q, hd, hn⟩ := h
  rw [nearest_unique neg q x _ hn (nearest_ofRat neg q (decWord_nonneg _ _ _ hd))]
  exact (C110_float _ _).mpr (.inr (.inr ⟨neg, q, hd, rfl⟩))

theorem intWord_first {l : Text} {n : Nat} (h : FirstInt l n) : intWord l = .ok (n : Int) := by
  obtain ⟨w, ws, hw, hi⟩ := h
  rw [intWord_of l w ws (splitU_of_words hw), (C110_int _ _).mpr hi]
  rfl

theorem floatWord_at {l : Text} {ws : List Text} {k : Nat} {w : Text} {x : F64} (h : Words white l ws) (hk : ws[k]? = some w) (hx : Num w x) :
    floatWord l k = .ok x := by
  unfold floatWord wordAt
  rw [splitU_of_words h, hk]
  simp only [bind, Except.bind]
  rw [pyFloat_num hx]
  rfl

theorem readQuad_num {l : Text} {x : Nat → F64} (h : Quad l x) (j : Nat) (hj : j < 3) :
    readQuad j l = .ok fun c => if c = 0 then x 0 else if c = 1 then x 1 else if c = 2 then x 2 else x 3 := by
  obtain ⟨w0, w1, w2, w3, ws, hw, h0, h1, h2, h3⟩ := h
  unfold readQuad
  rw [floatWord_at hw rfl h0, floatWord_at hw rfl h1, floatWord_at hw rfl h2, floatWord_at hw rfl h3]
  simp only [bind, Except.bind]
  rw [if_neg (by omega)]
  rfl

theorem stripT_padded {w t : Text} (h : Padded w t) : stripT t = w := by
  obtain ⟨u, v, rfl, h1, h2, h3⟩ := h
  exact stripT_pad u w v h1 h2 h3

theorem colInt_cols (a t l : Text) (n i j : Nat) (k : Int) (h : IntCols n k t) (hi : i = a.length) (hj : j = i + n) :
    colInt (a ++ (t ++ l)) i j = .ok k := by
  obtain ⟨hl, w, hp, hw⟩ := h
  unfold colInt
  rw [cols_at _ _ _ _ _ hi (by omega), stripT_padded hp, (C110_int _ _).mpr hw]
  rfl

theorem colFloat_cols (a t l : Text) (n i j : Nat) (x : F64) (ht : t.length = n) (h : ∃ w, Padded w t ∧ Num w x) (hi : i = a.length)
    (hj : j = i + n) : colFloat (a ++ (t ++ l)) i j = .ok x := by
  obtain ⟨w, hp, hw⟩ := h
  unfold colFloat
  rw [cols_at _ _ _ _ _ hi (by omega), stripT_padded hp, pyFloat_num hw]
  rfl

/-- Five numbers in columns. -/
theorem numCols5 (n : Nat) (x0 x1 x2 x3 x4 : F64) (p : Text) (h : NumCols n [x0, x1, x2, x3, x4] p) (a l : Text) (s : Nat) (hs : s = a.length) :
    p.length = 5 * n ∧ colFloat (a ++ (p ++ l)) s (s + n) = .ok x0 ∧ colFloat (a ++ (p ++ l)) (s + n) (s + 2 * n) = .ok x1 ∧
      colFloat (a ++ (p ++ l)) (s + 2 * n) (s + 3 * n) = .ok x2 ∧ colFloat (a ++ (p ++ l)) (s + 3 * n) (s + 4 * n) = .ok x3 ∧
      colFloat (a ++ (p ++ l)) (s + 4 * n) (s + 5 * n) = .ok x4 := by
  obtain ⟨a0, b0, rfl, l0, n0, a1, b1, rfl, l1, n1, a2, b2, rfl, l2, n2, a3, b3, rfl, l3, n3, a4, b4, rfl, l4, n4, rfl⟩ := h
  refine ⟨?_, ?_, ?_, ?_, ?_, ?_⟩
  · simp only [List.length_append, List.length_nil]; omega
  · have := colFloat_cols a a0 (a1 ++ (a2 ++ (a3 ++ (a4 ++ l)))) n s (s + n) x0 l0 n0 hs rfl
    simpa only [List.append_assoc, List.append_nil] using this
  · have := colFloat_cols (a ++ a0) a1 (a2 ++ (a3 ++ (a4 ++ l))) n (s + n) (s + 2 * n) x1 l1 n1 (by rw [List.length_append]; omega) (by ring)
    simpa only [List.append_assoc, List.append_nil] using this
  · have := colFloat_cols (a ++ a0 ++ a1) a2 (a3 ++ (a4 ++ l)) n (s + 2 * n) (s + 3 * n) x2 l2 n2
      (by rw [List.length_append, List.length_append]; omega) (by ring)
    simpa only [List.append_assoc, List.append_nil] using this
  · have := colFloat_cols (a ++ a0 ++ a1 ++ a2) a3 (a4 ++ l) n (s + 3 * n) (s + 4 * n) x3 l3 n3
      (by rw [List.length_append, List.length_append, List.length_append]; omega) (by ring)
    simpa only [List.append_assoc, List.append_nil] using this
  · have := colFloat_cols (a ++ a0 ++ a1 ++ a2 ++ a3) a4 l n (s + 4 * n) (s + 5 * n) x4 l4 n4
      (by rw [List.length_append, List.length_append, List.length_append, List.length_append]; omega) (by ring)
    simpa only [List.append_assoc, List.append_nil] using this

theorem isBcHead_iff (l : Text) : isBcHead l = true ↔ FieldTitle l := by
  unfold isBcHead FieldTitle
  rw [Bool.and_eq_true, decide_eq_true_eq, decide_eq_true_eq]
  constructor
  · exact fun h => ⟨splitU l, (splitU_iff _ _).mp rfl, h.1, h.2⟩
  · rintro ⟨ws, hw, h1, h2⟩
    rw [splitU_of_words hw]
    exact ⟨h1, h2⟩

theorem not_isBcHead {l : Text} (h : ¬ FieldTitle l) : isBcHead l = false := by
  rw [← isBcHead_iff] at h
  exact Bool.eq_false_iff.mpr h

theorem noTitle_not {l : Text} (h : NoFieldTitle l) : ¬ FieldTitle l := by
  obtain ⟨ws, hw, -, hn⟩ := h
  rintro ⟨ws', hw', -, hn'⟩
  rw [← splitU_of_words hw', splitU_of_words hw] at hn'
  exact hn' hn

/-! ### The lines of a curved edge and of a boundary condition -/

theorem pyIndex_of (n i : Nat) (h : i < n) : pyIndex n (i : Int) = .ok i := by
  unfold pyIndex
  rw [if_pos (by omega), if_pos (by omega), Int.toNat_natCast]

theorem putReaCurve_text (nel : Nat) (c : Side) (l : Text) (h : CurveAt nel c l) (M : HexaData F64) (hl : M.elem.length = nel) :
    putReaCurve nel M l = .ok { M with elem := M.elem.modify c.el fun el => el.setCurve c.edge c.par c.typ } := by
  obtain ⟨hi, hk, a, b, p, t, z, rfl, ha, hb, hp, ht, ws, hw⟩ := h
  have e : a ++ b ++ p ++ t ++ z = a ++ (b ++ (p ++ (t ++ z))) := by simp only [List.append_assoc]
  have e' : a ++ b ++ p ++ t ++ z = (a ++ b) ++ (p ++ (t ++ z)) := by simp only [List.append_assoc]
  have hA : (curveCols nel).1 = if nel < 10 ^ 3 then 3 else 2 := by unfold curveCols; split_ifs <;> rfl
  have hB : (curveCols nel).2 = (curveCols nel).1 + if nel < 10 ^ 3 then 3 else if nel < 10 ^ 6 then 6 else 10 := by
    unfold curveCols; split_ifs <;> rfl
  have la : a.length = (curveCols nel).1 := ha.1.trans hA.symm
  have lb : (a ++ b).length = (curveCols nel).2 := by rw [List.length_append, hb.1, la, hB]
  have c1 : colInt (a ++ b ++ p ++ t ++ z) 0 (curveCols nel).1 = .ok ((c.edge : Int) + 1) := by
    rw [e]
    exact colInt_cols [] a _ _ 0 _ _ ha rfl (by rw [Nat.zero_add, hA])
  have c2 : colInt (a ++ b ++ p ++ t ++ z) (curveCols nel).1 (curveCols nel).2 = .ok ((c.el : Int) + 1) := by
    rw [e]
    exact colInt_cols a b _ _ _ _ _ hb la.symm hB
  obtain ⟨hpl, f0, f1, f2, f3, f4⟩ := numCols5 14 (c.par 0) (c.par 1) (c.par 2) (c.par 3) (c.par 4) p hp (a ++ b) (t ++ z) (curveCols nel).2 lb.symm
  rw [← e'] at f0 f1 f2 f3 f4
  have f5 : cols (a ++ b ++ p ++ t ++ z) ((curveCols nel).2 + 70) ((curveCols nel).2 + 73) = t := by
    have e2 : a ++ b ++ p ++ t ++ z = (a ++ b ++ p) ++ (t ++ z) := by simp only [List.append_assoc]
    have l3 : (a ++ b ++ p).length = (curveCols nel).2 + 70 := by rw [List.length_append, lb, hpl]
    unfold cols
    rw [e2, List.drop_left' l3, show (curveCols nel).2 + 73 - ((curveCols nel).2 + 70) = 3 by omega]
    rcases ht with ht | ⟨ht, rfl⟩
    · rw [List.take_left' ht]
    · rw [List.append_nil, List.take_of_length_le (by omega)]
  have hw' : wordAt t 0 = .ok c.typ := by
    unfold wordAt
    rw [splitU_of_words hw]
    rfl
  unfold putReaCurve
  simp only [c1, c2, f0, f1, f2, f3, f4, f5, hw', bind, Except.bind]
  rw [add_sub_cancel_right, pyIndex_of _ _ (by rw [hl]; exact hi)]
  simp only
  rw [add_sub_cancel_right, pyIndex_of _ _ hk]
  simp only [pure, Except.pure]
  congr 2
  apply congrArg (M.elem.modify c.el)
  funext el
  unfold Elem.setCurve
  congr 1
  funext x j
  by_cases hx : x = c.edge ∧ j < 5
  · rw [if_pos hx, if_pos hx]
    obtain ⟨-, hj⟩ := hx
    have : j = 0 ∨ j = 1 ∨ j = 2 ∨ j = 3 ∨ j = 4 := by omega
    rcases this with rfl | rfl | rfl | rfl | rfl <;> rfl
  · rw [if_neg hx, if_neg hx]

theorem readBC_text (nel i f : Nat) (r : BC F64) (l : Text) (h : ConditionAt nel i f r l) (hf : f < 6) :
    readBC nel i f l = .ok (if r.typ = nE ∧ r.p3.mag = 0 then BC.zero else r) := by
  obtain ⟨x, n, y, a, p, z, rfl, hn, hlab, hpad, h3, h36, h6, hp⟩ := h
  have e0 : [x] ++ n ++ [y] ++ a ++ p ++ z = [x] ++ (n ++ ([y] ++ a ++ p ++ z)) := by simp only [List.append_assoc]
  have hname : npU3 (stripT (cols ([x] ++ n ++ [y] ++ a ++ p ++ z) 1 3)) = r.typ := by
    rw [e0, cols_at [x] n _ 1 3 rfl (by rw [hn]; rfl), stripT_padded hpad, npU3_label _ hlab]
  have l4 : ([x] ++ n ++ [y]).length = 4 := by rw [List.length_append, List.length_append, hn]; rfl
  have ea : ([x] ++ n ++ [y] ++ a ++ p ++ z) = ([x] ++ n ++ [y] ++ a) ++ (p ++ z) := by simp only [List.append_assoc]
  have fin : ∀ own face : Int, own = r.own → face = r.ownFace →
      (if r.typ = nE ∧ r.p3.mag = 0 then (.ok BC.zero : Py (BC F64)) else .ok ⟨r.typ, own, face, r.p3, r.p4, r.p5, r.p6, r.p7⟩) =
        .ok (if r.typ = nE ∧ r.p3.mag = 0 then BC.zero else r) := by
    rintro own face rfl rfl
    split_ifs <;> rfl
  unfold readBC
  rw [if_neg (by omega)]
  rcases Nat.lt_or_ge nel (10 ^ 3) with g3 | g3
  · have g6 : nel < 10 ^ 6 := lt_trans g3 (by norm_num)
    obtain ⟨a1, a2, rfl, i1, i2⟩ := h3 g3
    rw [if_pos g6] at hp
    obtain ⟨-, f0, f1, f2, f3, f4⟩ := numCols5 14 _ _ _ _ _ p hp ([x] ++ n ++ [y] ++ (a1 ++ a2)) z 10
      (by rw [List.length_append, l4, List.length_append, i1.1, i2.1])
    rw [← ea] at f0 f1 f2 f3 f4
    have c1 : colInt ([x] ++ n ++ [y] ++ (a1 ++ a2) ++ p ++ z) 4 7 = .ok r.own := by
      have := colInt_cols ([x] ++ n ++ [y]) a1 (a2 ++ (p ++ z)) 3 4 7 _ i1 l4.symm rfl
      simpa only [List.append_assoc] using this
    have c2 : colInt ([x] ++ n ++ [y] ++ (a1 ++ a2) ++ p ++ z) 7 10 = .ok r.ownFace := by
      have := colInt_cols ([x] ++ n ++ [y] ++ a1) a2 (p ++ z) 3 7 10 _ i2 (by rw [List.length_append, l4, i1.1]) rfl
      simpa only [List.append_assoc] using this
    simp only [if_pos g3, if_pos g6, c1, c2, f0, f1, f2, f3, f4, hname, bind, Except.bind, pure, Except.pure]
    exact fin _ _ rfl rfl
  · rcases Nat.lt_or_ge nel (10 ^ 6) with g6 | g6
    · obtain ⟨la, o1, o2⟩ := h36 g3 g6
      rw [if_pos g6] at hp
      obtain ⟨-, f0, f1, f2, f3, f4⟩ := numCols5 14 _ _ _ _ _ p hp ([x] ++ n ++ [y] ++ a) z 10 (by rw [List.length_append, l4, la])
      rw [← ea] at f0 f1 f2 f3 f4
      simp only [if_neg (not_lt.mpr g3), if_pos g6, f0, f1, f2, f3, f4, hname, bind, Except.bind, pure, Except.pure]
      exact fin _ _ o1.symm o2.symm
    · obtain ⟨a1, a2, rfl, i1, i2⟩ := h6 g6
      rw [if_neg (not_lt.mpr g6)] at hp
      obtain ⟨-, f0, f1, f2, f3, f4⟩ := numCols5 18 _ _ _ _ _ p hp ([x] ++ n ++ [y] ++ (a1 ++ a2)) z 16
        (by rw [List.length_append, l4, List.length_append, i1.1, i2.1])
      rw [← ea] at f0 f1 f2 f3 f4
      have c1 : colInt ([x] ++ n ++ [y] ++ (a1 ++ a2) ++ p ++ z) 4 15 = .ok r.own := by
        have := colInt_cols ([x] ++ n ++ [y]) a1 (a2 ++ (p ++ z)) 11 4 15 _ i1 l4.symm rfl
        simpa only [List.append_assoc] using this
      have c2 : colInt ([x] ++ n ++ [y] ++ (a1 ++ a2) ++ p ++ z) 15 16 = .ok r.ownFace := by
        have := colInt_cols ([x] ++ n ++ [y] ++ a1) a2 (p ++ z) 1 15 16 _ i2 (by rw [List.length_append, l4, i1.1]) rfl
        simpa only [List.append_assoc] using this
      simp only [if_neg (not_lt.mpr g3), if_neg (not_lt.mpr g6), c1, c2, f0, f1, f2, f3, f4, hname, bind, Except.bind, pure, Except.pure]
      exact fin _ _ rfl rfl

/-! ### All curved edges -/

theorem foldCurves_text (nel : Nat) (C : List Side) (E : List Text) (h : List.Forall₂ (CurveAt nel) C E)
    (honce : C.Pairwise fun a b => a.el = b.el → a.edge ≠ b.edge) (M : HexaData F64) (hl : M.elem.length = nel) :
    ∃ M' : HexaData F64, E.foldlM (putReaCurve nel) M = .ok M' ∧ M' = { M with elem := M'.elem } ∧ M'.elem.length = nel ∧
      ∀ i < nel, ∃ cv cc, M'.el i = { M.el i with curv := cv, ccurv := cc } ∧
        (∀ c ∈ C, c.el = i → cc c.edge = c.typ ∧ ∀ j < 5, cv c.edge j = c.par j) ∧
        ∀ k, (∀ c ∈ C, c.el = i → c.edge ≠ k) → cc k = (M.el i).ccurv k ∧ ∀ j, cv k j = (M.el i).curv k j := by
  induction h generalizing M with
  | nil => exact ⟨M, rfl, rfl, hl, fun i _ => ⟨(M.el i).curv, (M.el i).ccurv, rfl, by simp, fun k _ => ⟨rfl, fun _ => rfl⟩⟩⟩
  | @cons c l C E hc _ ih =>
    rw [List.pairwise_cons] at honce
    have hstep := putReaCurve_text nel c l hc M hl
    obtain ⟨M', hf, hM, hl', he⟩ := ih honce.2 { M with elem := M.elem.modify c.el fun el => el.setCurve c.edge c.par c.typ } (by simpa using hl)
    refine ⟨M', ?_, by rw [hM], hl', ?_⟩
    · rw [List.foldlM_cons, hstep]
      exact hf
    · intro i hi
      obtain ⟨cv, cc, e, h1, h2⟩ := he i hi
      rw [el_modify _ _ _ _ (by omega)] at e h2
      by_cases hic : i = c.el
      · rw [if_pos hic] at e h2
        refine ⟨cv, cc, e, ?_, ?_⟩
        · intro d hd hdi
          rcases List.mem_cons.mp hd with rfl | hd
          · obtain ⟨g1, g2⟩ := h2 d.edge fun d' hd' hd'i => fun he' => honce.1 d' hd' (by rw [hd'i, hdi]) he'.symm
            refine ⟨by rw [g1]; unfold Elem.setCurve; dsimp only; rw [if_pos rfl], fun j hj => ?_⟩
            rw [g2 j]; unfold Elem.setCurve; dsimp only; rw [if_pos ⟨rfl, hj⟩]
          · exact h1 d hd hdi
        · intro k hk
          obtain ⟨g1, g2⟩ := h2 k fun d hd => hk d (List.mem_cons_of_mem _ hd)
          have hne : ¬ k = c.edge := fun e' => hk c List.mem_cons_self hic.symm e'.symm
          refine ⟨by rw [g1]; unfold Elem.setCurve; dsimp only; rw [if_neg hne], fun j => ?_⟩
          rw [g2 j]; unfold Elem.setCurve; dsimp only; rw [if_neg fun hh => hne hh.1]
      · rw [if_neg hic] at e h2
        refine ⟨cv, cc, e, ?_, fun k hk => h2 k fun d hd => hk d (List.mem_cons_of_mem _ hd)⟩
        intro d hd hdi
        rcases List.mem_cons.mp hd with rfl | hd
        · exact absurd hdi.symm hic
        · exact h1 d hd hdi

/-! ### The elements -/

/-- The coordinates read. -/
def posText (nd : Nat) (X : Nat → Nat → Nat → F64) : Arr F64 :=
  ⟨3, nd - 1, 2, 2, fun d z y x => if d < nd ∧ z < nd - 1 ∧ y < 2 ∧ x < 2 then X d z (vertNo y x) else 0⟩

theorem readPos_text (nd : Nat) (hnd : nd = 2 ∨ nd = 3) (X : Nat → Nat → Nat → F64) (ls Q : List Text)
    (hls : ∀ k < (nd - 1) * nd, ls[1 + k]? = Q[k]?)
    (hQ : ∀ z < nd - 1, ∀ d < nd, ∃ l, Q[z * nd + d]? = some l ∧ Quad l (X d z)) : readPos nd ls = .ok (posText nd X) := by
  have hg : geoLines nd = (nd - 1) * nd := rfl
  have hndp : 0 < nd := by omega
  unfold readPos
  rw [mapM_eq_ok _ (fun k c => if c = 0 then X (k % nd) (k / nd) 0 else if c = 1 then X (k % nd) (k / nd) 1
    else if c = 2 then X (k % nd) (k / nd) 2 else X (k % nd) (k / nd) 3)]
  · simp only [bind, Except.bind, pure, Except.pure]
    unfold posText
    congr 2
    funext d z y x
    by_cases hc : d < nd ∧ z < nd - 1 ∧ y < 2 ∧ x < 2
    · rw [if_pos hc, if_pos hc]
      obtain ⟨c1, c2, c3, c4⟩ := hc
      have hk : z * nd + d < (nd - 1) * nd := row_lt c2 c1
      rw [List.getD_eq_getElem?_getD, List.getElem?_map, List.getElem?_range (by rw [hg]; exact hk)]
      simp only [Option.map_some, Option.getD_some]
      have e1 : (z * nd + d) % nd = d := by rw [Nat.mul_comm, Nat.mul_add_mod, Nat.mod_eq_of_lt c1]
      have e2 : (z * nd + d) / nd = z := by
        rw [Nat.mul_comm, Nat.mul_add_div hndp, Nat.div_eq_of_lt c1, Nat.add_zero]
      rw [e1, e2]
      have h1 : y = 0 ∨ y = 1 := by omega
      have h2 : x = 0 ∨ x = 1 := by omega
      rcases h1 with rfl | rfl <;> rcases h2 with rfl | rfl <;> rfl
    · rw [if_neg hc, if_neg hc]
  · intro k hk
    rw [List.mem_range] at hk
    have hd : k % nd < nd := Nat.mod_lt _ hndp
    have hz : k / nd < nd - 1 := Nat.div_lt_of_lt_mul (by rw [hg, Nat.mul_comm] at hk; exact hk)
    obtain ⟨l, hl, hq⟩ := hQ (k / nd) hz (k % nd) hd
    have e : k / nd * nd + k % nd = k := by rw [Nat.mul_comm]; exact Nat.div_add_mod k nd
    rw [e] at hl
    rw [List.getD_eq_getElem?_getD, hls k hk, hl, Option.getD_some]
    exact readQuad_num hq _ (by omega)

theorem flatten_at {α : Type} (L : List (List α)) (w : Nat) (h : ∀ e ∈ L, e.length = w) (i k : Nat) (hk : k < w) (e : List α) (he : L[i]? = some e)
    (R : List α) : (L.flatten ++ R)[w * i + k]? = e[k]? := by
  induction L generalizing i with
  | nil => cases he
  | cons a L ih =>
    have ha := h a List.mem_cons_self
    cases i with
    | zero =>
      rw [List.getElem?_cons_zero] at he
      rw [← Option.some.inj he, List.flatten_cons, List.append_assoc, Nat.mul_zero, Nat.zero_add, List.getElem?_append_left (by omega)]
    | succ i =>
      rw [List.getElem?_cons_succ] at he
      rw [List.flatten_cons, List.append_assoc, List.getElem?_append_right (by rw [ha]; nlinarith),
        show w * (i + 1) + k - a.length = w * i + k by rw [ha]; rw [Nat.mul_succ]; omega]
      exact ih (fun e he => h e (List.mem_cons_of_mem _ he)) i he

theorem flatten_length {α : Type} (L : List (List α)) (w : Nat) (h : ∀ e ∈ L, e.length = w) : L.flatten.length = w * L.length := by
  induction L with
  | nil => rfl
  | cons a L ih =>
    rw [List.flatten_cons, List.length_append, h a List.mem_cons_self, ih fun e he => h e (List.mem_cons_of_mem _ he), List.length_cons, Nat.mul_succ]
    omega

/-! ### The number of fields -/

theorem count_fields (p : Text → Bool) (F : List (Text × Option (List Text))) :
    (F.flatMap fun f => f.1 :: f.2.getD []).countP p = (F.filterMap Prod.snd).flatten.countP p + (F.map Prod.fst).countP p := by
  induction F with
  | nil => rfl
  | cons f F ih =>
    obtain ⟨t, o⟩ := f
    cases o with
    | none =>
      simp only [List.flatMap_cons, List.countP_append, List.countP_cons, List.filterMap_cons, List.map_cons, Option.getD_none, ih, List.countP_nil]
      omega
    | some ls =>
      simp only [List.flatMap_cons, List.countP_append, List.countP_cons, List.filterMap_cons, List.map_cons, Option.getD_some, ih, List.flatten_cons]
      omega

theorem count_titles (p : Text → Bool) (F : List (Text × Option (List Text))) (h1 : ∀ t ls, (t, some ls) ∈ F → p t = true)
    (h2 : ∀ t, (t, none) ∈ F → p t = false) : (F.map Prod.fst).countP p = (F.filterMap Prod.snd).length := by
  induction F with
  | nil => rfl
  | cons f F ih =>
    have ih := ih (fun t ls h => h1 t ls (List.mem_cons_of_mem _ h)) fun t h => h2 t (List.mem_cons_of_mem _ h)
    obtain ⟨t, o⟩ := f
    cases o with
    | none => simp only [List.map_cons, List.countP_cons, h2 t List.mem_cons_self, ih, List.filterMap_cons]; rfl
    | some ls => simp only [List.map_cons, List.countP_cons, h1 t ls List.mem_cons_self, ih, List.filterMap_cons, List.length_cons]; rfl

theorem heads_given (P : ReaParts) {nd nel : Nat} {X : Nat → Nat → Nat → Nat → F64} {C : List Side} {B : Nat → Nat → Nat → BC F64}
    (h : ReaSays P nd nel X C B) : (P.lines.filter isBcHead).length = P.given.length := by
  rw [← List.countP_eq_length_filter]
  have e1 : P.others.countP isBcHead = 0 := by
    rw [List.countP_eq_zero]
    intro l hl
    rw [isBcHead_iff]
    exact h.others l hl
  have e2 := count_titles isBcHead P.fields (fun t ls ht => (isBcHead_iff t).mpr (h.titles t ls ht))
    fun t ht => not_isBcHead (noTitle_not (h.none t ht))
  have e3 := count_fields isBcHead P.fields
  have split : ∃ H, P.lines = H ++ ((P.fields.flatMap fun f => f.1 :: f.2.getD []) ++ P.rest) ∧
      P.others = H ++ (P.given.flatten ++ P.rest) := by
    refine ⟨P.head.1 :: P.head.2 :: P.dims :: P.npar :: (P.pars ++ P.nscal :: (P.scals ++ P.nswitch :: (P.switches ++ P.scales.1 :: P.scales.2 ::
      P.count :: (P.els.flatten ++ P.ctitle :: P.ncurv :: (P.curves ++ [P.btitle]))))), ?_, ?_⟩
    · unfold ReaParts.lines
      simp only [List.cons_append, List.append_assoc, List.nil_append]
    · unfold ReaParts.others
      simp only [List.cons_append, List.append_assoc, List.nil_append]
  obtain ⟨H, l1, l2⟩ := split
  rw [l2, List.countP_append, List.countP_append] at e1
  rw [l1, List.countP_append, List.countP_append, e3, e2]
  unfold ReaParts.given at e1 ⊢
  generalize List.countP isBcHead H = x at *
  generalize List.countP isBcHead P.rest = y at *
  generalize List.countP isBcHead (List.filterMap Prod.snd P.fields).flatten = z at *
  omega

/-! ### The file -/

theorem readParams_text (E R : List Text) (h : ∀ l ∈ E, FirstNum l) : readParams E.length (E ++ R) = .ok () := by
  unfold readParams
  apply forM_ok
  intro k hk
  rw [List.mem_range] at hk
  rw [getD_app _ _ _ _ hk, List.getD_eq_getElem?_getD, List.getElem?_eq_getElem hk, Option.getD_some]
  obtain ⟨w, ws, x, hw, hx⟩ := h _ (List.getElem_mem hk)
  rw [floatWord_at hw rfl hx]
  rfl

/-- The mesh before the curved edges are read. -/
def textStart (native : Endian) (nd nel nbc n : Nat) (X : Nat → Nat → Nat → Nat → F64) : HexaData F64 :=
  { (HexaData.new native nd nel ⟨2, 2, nd - 1, true⟩ ⟨nd, 0, 0, 0, 0⟩ nbc : HexaData F64) with
    ncurv := n
    elem := (HexaData.new native nd nel ⟨2, 2, nd - 1, true⟩ ⟨nd, 0, 0, 0, 0⟩ nbc : HexaData F64).elem.zipWith
      (fun el p => { el with pos := p }) ((List.range nel).map fun i => posText nd (X i)) }

theorem textStart_length (native : Endian) (nd nel nbc n : Nat) (X : Nat → Nat → Nat → Nat → F64) :
    (textStart native nd nel nbc n X).elem.length = nel := by
  simp [textStart, HexaData.new]

theorem textStart_el (native : Endian) (nd nel nbc n : Nat) (X : Nat → Nat → Nat → Nat → F64) (i : Nat) (hi : i < nel) :
    (textStart native nd nel nbc n X).el i = { (Elem.new 0 0 0 2 2 (nd - 1) nbc : Elem F64) with pos := posText nd (X i) } := by
  unfold HexaData.el
  simp [textStart, HexaData.new, hi]

theorem readFaces_text (nd nel nbc : Nat) (M : HexaData F64) (hl : M.elem.length = nel) (ls : List Text) (r : Nat × Nat × Nat → BC F64)
    (h : ∀ t ∈ prod3 (List.range nbc) (List.range nel) (List.range (2 * nd)),
      readBC nel t.2.1 t.2.2 (ls.getD ((1 + nel * (2 * nd)) * t.1 + 1 + 2 * nd * t.2.1 + t.2.2) []) = .ok (r t)) :
    ∃ M' : HexaData F64, readFaces nd nel nbc M ls = .ok M' ∧ M' = { M with elem := M'.elem } ∧ M'.elem.length = nel ∧
      ∀ i < nel, M'.el i = { M.el i with bcs := fun b f => if b < nbc ∧ f < 2 * nd then r (b, i, f) else BC.zero } := by
  unfold readFaces
  simp only
  rw [mapM_eq_ok _ _ _ h]
  simp only [bind, Except.bind, pure, Except.pure]
  refine ⟨_, rfl, rfl, by simpa using hl, fun i hi => ?_⟩
  unfold HexaData.el
  rw [List.getD_eq_getElem?_getD, List.getElem?_mapIdx, List.getElem?_eq_getElem (by omega), List.getD_eq_getElem?_getD,
    List.getElem?_eq_getElem (by omega)]
  simp only [Option.map_some, Option.getD_some]
  congr 1
  funext b f
  by_cases hc : b < nbc ∧ f < 2 * nd
  · rw [if_pos hc, if_pos hc, List.getD_eq_getElem?_getD, List.getElem?_map, getElem?_prod3 _ _ _ b i f hc.1 hi hc.2]
    rfl
  · rw [if_neg hc, if_neg hc]

theorem readSides_text (native : Endian) (P : ReaParts) (nd nel : Nat) (X : Nat → Nat → Nat → Nat → F64) (C : List Side)
    (B : Nat → Nat → Nat → BC F64) (h : ReaSays P nd nel X C B) (A : List (Text × List Text)) (hA : P.given = A.map Prod.snd) (R : List Text) :
    ∃ M, readSides native nd nel P.given.length ((List.range nel).map fun i => posText nd (X i))
      (P.ctitle :: P.ncurv :: (P.curves ++ P.btitle :: ((A.map fun f => f.1 :: f.2).flatten ++ R))) = .ok M ∧ ReaContent P nd nel X C B M := by
  have hd := h.dim
  have hC : P.curves.length = C.length := h.curves.length_eq.symm
  obtain ⟨M1, hf1, hM1, hl1, he1⟩ := foldCurves_text nel C P.curves h.curves h.once (textStart native nd nel P.given.length C.length X)
    (textStart_length native nd nel _ _ X)
  have hcur : ∀ R' : List Text, (List.range P.curves.length).foldlM
      (fun M k => putReaCurve nel M ((P.ctitle :: P.ncurv :: (P.curves ++ R')).getD (2 + k) []))
      (textStart native nd nel P.given.length C.length X) = .ok M1 := by
    intro R'
    rw [foldlM_lines (putReaCurve nel) P.curves _ 2]
    · exact hf1
    · intro k hk
      rw [Nat.add_comm 2 k, List.getElem?_cons_succ, List.getElem?_cons_succ, List.getElem?_append_left hk]
  have hdr : (P.ctitle :: P.ncurv :: (P.curves ++ P.btitle :: ((A.map fun f => f.1 :: f.2).flatten ++ R))).drop (2 + P.curves.length + 1) =
      (A.map fun f => f.1 :: f.2).flatten ++ R := by
    have : P.ctitle :: P.ncurv :: (P.curves ++ P.btitle :: ((A.map fun f => f.1 :: f.2).flatten ++ R)) =
        (P.ctitle :: P.ncurv :: (P.curves ++ [P.btitle])) ++ ((A.map fun f => f.1 :: f.2).flatten ++ R) := by simp
    rw [this, List.drop_left' (by simp; omega)]
  have hlenA : A.length = P.given.length := by rw [hA, List.length_map]
  have hw : ∀ e ∈ A.map fun f => f.1 :: f.2, e.length = 1 + nel * (2 * nd) := by
    intro e he
    obtain ⟨f, hf, rfl⟩ := List.mem_map.mp he
    have : f.2 ∈ P.given := by rw [hA]; exact List.mem_map_of_mem hf
    obtain ⟨b, hb⟩ := List.getElem?_of_mem this
    rw [List.length_cons, (h.conditions b _ hb).1, Nat.add_comm]
  have hbc : ∀ t ∈ prod3 (List.range P.given.length) (List.range nel) (List.range (2 * nd)),
      readBC nel t.2.1 t.2.2 (((A.map fun f => f.1 :: f.2).flatten ++ R).getD ((1 + nel * (2 * nd)) * t.1 + 1 + 2 * nd * t.2.1 + t.2.2) []) =
        .ok (if (B t.1 t.2.1 t.2.2).typ = nE ∧ (B t.1 t.2.1 t.2.2).p3.mag = 0 then BC.zero else B t.1 t.2.1 t.2.2) := by
    rintro ⟨b, i, f⟩ ht
    rw [mem_prod3, List.mem_range, List.mem_range, List.mem_range] at ht
    obtain ⟨t1, t2, t3⟩ := ht
    dsimp only at t1 t2 t3 ⊢
    have hg : P.given[b]? = some (A[b]'(by omega)).2 := by
      rw [hA, List.getElem?_map, List.getElem?_eq_getElem (by omega)]; rfl
    obtain ⟨l, hl, hc⟩ := (h.conditions b _ hg).2 i t2 f t3
    have hlt : 1 + (i * (2 * nd) + f) < 1 + nel * (2 * nd) := Nat.add_lt_add_left (row_lt t2 t3) 1
    have e := flatten_at (A.map fun f => f.1 :: f.2) _ hw b (1 + (i * (2 * nd) + f)) hlt ((A[b]'(by omega)).1 :: (A[b]'(by omega)).2)
      (by rw [List.getElem?_map, List.getElem?_eq_getElem (by omega)]; rfl) R
    rw [List.getD_eq_getElem?_getD, show (1 + nel * (2 * nd)) * b + 1 + 2 * nd * i + f = (1 + nel * (2 * nd)) * b + (1 + (i * (2 * nd) + f)) by ring,
      e, Nat.add_comm 1, List.getElem?_cons_succ, hl, Option.getD_some]
    exact readBC_text nel i f _ l hc (by omega)
  obtain ⟨M, hr, hM, hlen, hel⟩ := readFaces_text nd nel P.given.length M1 hl1 _ _ hbc
  refine ⟨M, ?_, ?_⟩
  · unfold readSides
    rw [List.getD_cons_succ, List.getD_cons_zero, intWord_first h.ncurv]
    simp only [bind, Except.bind]
    rw [Int.toNat_natCast, hdr]
    have := hcur (P.btitle :: ((A.map fun f => f.1 :: f.2).flatten ++ R))
    rw [← hC] at this
    unfold textStart at this
    rw [this]
    exact hr
  · rw [hM1] at hM
    have hc1 : ∀ i < nel, ∃ cv cc, M1.el i =
        { (Elem.new 0 0 0 2 2 (nd - 1) P.given.length : Elem F64) with pos := posText nd (X i), curv := cv, ccurv := cc } ∧
        (∀ c ∈ C, c.el = i → cc c.edge = c.typ ∧ ∀ j < 5, cv c.edge j = c.par j) ∧
        ∀ k, (∀ c ∈ C, c.el = i → c.edge ≠ k) → cc k = [] ∧ ∀ j, cv k j = 0 := by
      intro i hi
      obtain ⟨cv, cc, e, h1, h2⟩ := he1 i hi
      rw [textStart_el native nd nel _ _ X i hi] at e h2
      exact ⟨cv, cc, e, h1, h2⟩
    refine ⟨by rw [hM]; rfl, by rw [hM]; rfl, by rw [hM]; rfl, by rw [hM]; rfl, by rw [hM]; rfl, by rw [hM]; rfl, ?_, ?_, ?_, ?_, ?_, ?_, ?_, ?_⟩
    · exact hlen
    · intro i hi
      obtain ⟨cv, cc, e, -⟩ := hc1 i hi
      rw [hel i hi, e]
      exact ⟨rfl, rfl, rfl, rfl⟩
    · intro i hi d hd' z hz
      obtain ⟨cv, cc, e, -⟩ := hc1 i hi
      rw [hel i hi, e]
      simp only [posText]
      rw [if_pos ⟨hd', hz, by norm_num, by norm_num⟩, if_pos ⟨hd', hz, by norm_num, by norm_num⟩, if_pos ⟨hd', hz, by norm_num, by norm_num⟩,
        if_pos ⟨hd', hz, by norm_num, by norm_num⟩]
      exact ⟨rfl, rfl, rfl, rfl⟩
    · intro i hi d z y x hd'
      obtain ⟨cv, cc, e, -⟩ := hc1 i hi
      rw [hel i hi, e]
      simp only [posText]
      rw [if_neg (by omega)]
    · intro c hc
      have hi : c.el < nel := by
        obtain ⟨r, hr⟩ := List.getElem?_of_mem hc
        have hr' := List.getElem?_eq_some_iff.mp hr
        obtain ⟨hlt, heq⟩ := hr'
        have := (List.forall₂_iff_get.mp h.curves).2 r hlt (by omega)
        rw [List.get_eq_getElem, heq] at this
        exact this.1
      obtain ⟨cv, cc, e, h1, -⟩ := hc1 c.el hi
      rw [hel _ hi, e]
      exact h1 c hc rfl
    · intro i hi k hk
      obtain ⟨cv, cc, e, -, h2⟩ := hc1 i hi
      rw [hel i hi, e]
      exact h2 k hk
    · intro i hi
      obtain ⟨cv, cc, e, -⟩ := hc1 i hi
      rw [hel i hi, e]
      rfl
    · intro b hb i hi f hf
      unfold HexaData.bc
      rw [hel i hi]
      simp only
      rw [if_pos ⟨hb, hf⟩]

/-- **C119** in part: if no field without boundary conditions comes before a field with conditions then `readrea` returns what the file says. -/
theorem C119_partial (native : Endian) (s : Text) (P : ReaParts) (nd nel : Nat) (X : Nat → Nat → Nat → Nat → F64) (C : List Side)
    (B : Nat → Nat → Nat → BC F64) (hs : LinesOf s P.lines) (h : ReaSays P nd nel X C B) (A : List (Text × List Text)) (Z : List Text)
    (hF : P.fields = (A.map fun f => (f.1, some f.2)) ++ Z.map fun t => (t, none)) :
    ∃ M, readrea native s = .ok M ∧ ReaContent P nd nel X C B M := by
  have hd := h.dim
  have hgiven : P.given = A.map Prod.snd := by
    unfold ReaParts.given
    rw [hF, List.filterMap_append, List.filterMap_map, List.filterMap_map]
    have e1 : Z.filterMap (Prod.snd ∘ fun t => ((t, none) : Text × Option (List Text))) = [] := by
      rw [List.filterMap_eq_nil_iff]; intros; rfl
    have e2 : A.filterMap (Prod.snd ∘ fun f => ((f.1, some f.2) : Text × Option (List Text))) = A.map Prod.snd := by
      rw [← List.filterMap_eq_map]; rfl
    rw [e1, e2, List.append_nil]
  have hflat : (P.fields.flatMap fun f => f.1 :: f.2.getD []) = (A.map fun f => f.1 :: f.2).flatten ++ Z := by
    rw [hF, List.flatMap_append, List.flatMap_map, List.flatMap_map, ← List.flatMap_def]
    congr 1
    simp
  have hw : ∀ e ∈ P.els, e.length = 1 + geoLines nd := by
    intro e he
    obtain ⟨i, hi⟩ := List.getElem?_of_mem he
    obtain ⟨t, Q, rfl, hQ, -⟩ := h.vertices i e hi
    rw [List.length_cons, hQ, Nat.add_comm]
    rfl
  obtain ⟨M, hM, hcont⟩ := readSides_text native P nd nel X C B h A hgiven (Z ++ P.rest)
  refine ⟨M, ?_, hcont⟩
  have hheads := heads_given P h
  unfold readrea
  simp only
  rw [(C22_lines _ _).mpr hs, hheads]
  unfold ReaParts.lines
  rw [hflat]
  simp only [List.getD_cons_succ, List.getD_cons_zero]
  rw [intWord_first h.dims, intWord_first h.npar]
  simp only [bind, Except.bind]
  rw [if_neg (by omega), Int.toNat_natCast]
  simp only [List.drop_succ_cons, List.drop_zero]
  rw [readParams_text _ _ h.pars]
  simp only
  rw [Nat.add_comm 4]
  simp only [List.drop_succ_cons]
  rw [List.drop_left]
  simp only [List.getD_cons_zero]
  rw [intWord_first h.nscal]
  simp only
  rw [Int.toNat_natCast, Nat.add_comm 1, List.drop_succ_cons, List.drop_left]
  simp only [List.getD_cons_zero]
  rw [intWord_first h.nswitch]
  simp only
  rw [Int.toNat_natCast, Nat.add_comm 1, List.drop_succ_cons, List.drop_left]
  simp only [List.getD_cons_succ, List.getD_cons_zero, List.drop_succ_cons, List.drop_zero]
  rw [intWord_first h.count]
  simp only
  rw [if_neg (by omega), Int.toNat_natCast, Int.toNat_natCast]
  unfold readMesh
  simp only
  rw [mapM_eq_ok _ (fun i => posText nd (X i))]
  · simp only [bind, Except.bind]
    rw [List.drop_left' (by rw [flatten_length _ _ hw, h.elements])]
    rw [List.append_assoc]
    exact hM
  · intro i hi
    rw [List.mem_range] at hi
    have hi' : i < P.els.length := by rw [h.elements]; exact hi
    obtain ⟨t, Q, he, hQl, hQ⟩ := h.vertices i _ (List.getElem?_eq_getElem hi')
    refine readPos_text nd hd (X i) _ Q (fun k hk => ?_) hQ
    rw [List.getElem?_drop, flatten_at P.els _ hw i (1 + k) (by unfold geoLines; omega) _ (List.getElem?_eq_getElem hi'), he, Nat.add_comm 1 k,
      List.getElem?_cons_succ]

/-! ### A file of another program -/

theorem num_of_pyFloat {w : Text} {x : F64} (h : pyFloat w = some x) (hf : x.Finite) : Num w x := by
  rcases (C110_float _ _).mp h with ⟨neg, -, e⟩ | ⟨neg, -, e⟩ | ⟨neg, q, hd, e⟩
  · rw [e] at hf; exfalso; revert hf; cases neg <;> decide +kernel
  · rw [e] at hf; exfalso; revert hf; cases neg <;> decide +kernel
  · exact ⟨neg, q, hd, e ▸ nearest_ofRat neg q (decWord_nonneg _ _ _ hd)⟩

namespace Samples

/-- Fourteen columns with the number zero. -/
def zero14 : Text := "       0.00000".toList

/-- The line of a wall. -/
def wallLine (f : Nat) : Text :=
  [' '] ++ "W ".toList ++ [' '] ++ ("  1".toList ++ ("  ".toList ++ Nat.toDigits 10 (f + 1))) ++
    (zero14 ++ ("  2.500000E-01".toList ++ (zero14 ++ (zero14 ++ (zero14 ++ []))))) ++ ['\n']

/-- Conditions for the temperature. -/
def thermal : Text × Option (List Text) := ("  ***** THERMAL BOUNDARY CONDITIONS *****\n".toList, some ((List.range 4).map wallLine))

/-- No conditions for the velocity. -/
def noFluid : Text × Option (List Text) := ("  ***** NO FLUID BOUNDARY CONDITIONS *****\n".toList, none)

/-- The parts of a file with one element and one curved edge; the field without conditions comes first or last. -/
def foreign (first : Bool) : ReaParts where
  head := ("****** PARAMETERS *****\n".toList, "    2.61 NEKTON VERSION\n".toList)
  dims := "2  DIMENSIONAL RUN\n".toList
  npar := "  1 PARAMETERS FOLLOW\n".toList
  pars := ["  1.0e0  p001 DENSITY\n".toList]
  nscal := " 0 Lines of passive scalar data follows\n".toList
  scals := []
  nswitch := " 1  LOGICAL SWITCHES FOLLOW\n".toList
  switches := [" F  IFFLOW\n".toList]
  scales := ("  5.0 5.0 -2.5 -2.5 XFAC,YFAC,XZERO,YZERO\n".toList, "**MESH DATA** 1st line is X of corner 1,2,3,4. 2nd line is Y.\n".toList)
  count := " 1 2 1 NEL,NDIM,NELV\n".toList
  els := [["  ELEMENT 1 [ 1A] GROUP 0\n".toList, "0. 1. 1. 0\n".toList, ".0 0 1.0000 10E-1 trailing\n".toList]]
  ctitle := "  ***** CURVED SIDE DATA *****\n".toList
  ncurv := " 1 Curved sides follow\n".toList
  curves := ["  3".toList ++ "  1".toList ++ (" 0.5          ".toList ++ (zero14 ++ (zero14 ++ (zero14 ++ (zero14 ++ []))))) ++ "  C".toList ++ ['\n']]
  btitle := "  ***** BOUNDARY CONDITIONS *****\n".toList
  fields := if first then [noFluid, thermal] else [thermal, noFluid]
  rest := ["  0 PRESOLVE/RESTART OPTIONS  *****\n".toList]

def one64 : F64 := Flt.ofRat false 1
def half64 : F64 := Flt.ofRat false (1 / 2)
def quarter64 : F64 := Flt.ofRat false (1 / 4)

/-- The vertices of the unit square. -/
def foreignX (_ d _ v : Nat) : F64 := if d = 0 then (if v = 1 ∨ v = 2 then one64 else 0) else if v = 2 ∨ v = 3 then one64 else 0

def foreignC : List Side := [⟨0, 2, fun j => if j = 0 then half64 else 0, ['C']⟩]

def foreignB (_ i f : Nat) : BC F64 := ⟨['W'], i + 1, f + 1, 0, quarter64, 0, 0, 0⟩

theorem first_of {l w : Text} {ws : List Text} {n : Nat} (h : splitU l = w :: ws) (hi : pyInt w = some (n : Int)) : FirstInt l n :=
  ⟨w, ws, (splitU_iff _ _).mp h, (C110_int _ _).mp hi⟩

theorem padded_of (u w v : Text) (h : (u.all white && v.all white && w.all fun c => !white c) = true) : Padded w (u ++ w ++ v) := by
  rw [Bool.and_eq_true, Bool.and_eq_true, List.all_eq_true, List.all_eq_true, List.all_eq_true] at h
  exact ⟨u, v, rfl, h.1.1, h.1.2, fun c hc => by simpa using h.2 c hc⟩

theorem foreign_says (first : Bool) : ReaSays (foreign first) 2 1 foreignX foreignC foreignB := by
  have h1 : ∀ f ∈ (foreign first).fields, f = thermal ∨ f = noFluid := by
    intro f hf
    unfold foreign at hf
    cases first <;> simpa [or_comm] using hf
  have zero : Num "0.00000".toList 0 := num_of_pyFloat (by decide +kernel) (by decide +kernel)
  have z14 : ∃ w, Padded w zero14 ∧ Num w 0 := ⟨_, padded_of (List.replicate 7 ' ') _ [] (by decide), zero⟩
  have hgiven : ∀ ls ∈ (foreign first).given, ls = (List.range 4).map wallLine := by
    intro ls hls
    obtain ⟨f, hf, e⟩ := List.mem_filterMap.mp hls
    rcases h1 f hf with rfl | rfl
    · exact (Option.some.inj e).symm
    · cases e
  refine ⟨.inl rfl, ?_, ?_, ?_, ?_, ?_, ?_, rfl, ?_, ?_, ?_, by simp [foreignC], ?_, ?_, ?_, ?_⟩
  · refine first_of (w := ['2']) (ws := ["DIMENSIONAL".toList, "RUN".toList]) ?_ ?_ <;> cases first <;> decide +kernel
  · refine first_of (w := ['1']) (ws := ["PARAMETERS".toList, "FOLLOW".toList]) ?_ ?_ <;> cases first <;> decide +kernel
  · intro l hl
    obtain rfl := List.mem_singleton.mp hl
    refine ⟨"1.0e0".toList, ["p001".toList, "DENSITY".toList], one64, (splitU_iff _ _).mp (by decide +kernel),
      num_of_pyFloat (by decide +kernel) (by decide +kernel)⟩
  · refine first_of (w := ['0']) (ws := ["Lines", "of", "passive", "scalar", "data", "follows"].map String.toList) ?_ ?_ <;> cases first <;> decide +kernel
  · refine first_of (w := ['1']) (ws := ["LOGICAL", "SWITCHES", "FOLLOW"].map String.toList) ?_ ?_ <;> cases first <;> decide +kernel
  · refine first_of (w := ['1']) (ws := ["2", "1", "NEL,NDIM,NELV"].map String.toList) ?_ ?_ <;> cases first <;> decide +kernel
  · intro i e he
    cases i with
    | zero =>
      rw [← Option.some.inj he]
      refine ⟨_, _, rfl, rfl, ?_⟩
      intro z hz d hd
      obtain rfl : z = 0 := by omega
      have : d = 0 ∨ d = 1 := by omega
      rcases this with rfl | rfl
      · refine ⟨_, rfl, ['0', '.'], ['1', '.'], ['1', '.'], ['0'], [], (splitU_iff _ _).mp (by decide +kernel), ?_, ?_, ?_, ?_⟩ <;>
          exact num_of_pyFloat (by decide +kernel) (by decide +kernel)
      · refine ⟨_, rfl, ".0".toList, ['0'], "1.0000".toList, "10E-1".toList, ["trailing".toList], (splitU_iff _ _).mp (by decide +kernel), ?_, ?_, ?_, ?_⟩ <;>
          exact num_of_pyFloat (by decide +kernel) (by decide +kernel)
    | succ i => cases he
  · refine first_of (w := ['1']) (ws := ["Curved", "sides", "follow"].map String.toList) ?_ ?_ <;> cases first <;> decide +kernel
  · refine .cons ⟨by decide, by decide, _, _, _, _, _, rfl, ⟨rfl, ['3'], padded_of [' ', ' '] _ [] (by decide), (C110_int _ _).mp (by decide)⟩,
      ⟨rfl, ['1'], padded_of [' ', ' '] _ [] (by decide), (C110_int _ _).mp (by decide)⟩, ?_, .inl rfl, [], (splitU_iff _ _).mp (by decide +kernel)⟩ .nil
    exact ⟨_, _, rfl, rfl, ⟨"0.5".toList, padded_of [' '] _ (List.replicate 10 ' ') (by decide), num_of_pyFloat (by decide +kernel) (by decide +kernel)⟩,
      _, _, rfl, rfl, z14, _, _, rfl, rfl, z14, _, _, rfl, rfl, z14, _, _, rfl, rfl, z14, rfl⟩
  · intro t ls ht
    rcases h1 _ ht with e | e
    · rw [(Prod.mk.inj e).1]
      exact ⟨_, (splitU_iff _ _).mp rfl, by decide +kernel, by decide +kernel⟩
    · cases (Prod.mk.inj e).2
  · intro t ht
    rcases h1 _ ht with e | e
    · cases (Prod.mk.inj e).2
    · rw [(Prod.mk.inj e).1]
      exact ⟨_, (splitU_iff _ _).mp rfl, by decide +kernel, by decide +kernel⟩
  · intro b ls hb
    rw [hgiven ls (List.mem_of_getElem? hb)]
    refine ⟨rfl, fun i hi f hf => ?_⟩
    obtain rfl : i = 0 := by omega
    refine ⟨wallLine f, ?_, ?_⟩
    · rw [Nat.zero_mul, Nat.zero_add, List.getElem?_map, List.getElem?_range (by omega)]
      rfl
    · refine ⟨_, _, _, _, _, _, rfl, rfl, (by decide : Label 2 ['W']), padded_of [] ['W'] [' '] (by decide), fun _ => ⟨_, _, rfl, ?_, ?_⟩, fun h => absurd h (by norm_num),
        fun h => absurd h (by norm_num), ?_⟩
      · exact ⟨rfl, ['1'], padded_of [' ', ' '] _ [] (by decide), (C110_int _ 1).mp (by decide)⟩
      · have : f = 0 ∨ f = 1 ∨ f = 2 ∨ f = 3 := by omega
        rcases this with rfl | rfl | rfl | rfl
        · exact ⟨rfl, ['1'], padded_of [' ', ' '] _ [] (by decide), (C110_int _ 1).mp (by decide)⟩
        · exact ⟨rfl, ['2'], padded_of [' ', ' '] _ [] (by decide), (C110_int _ 2).mp (by decide)⟩
        · exact ⟨rfl, ['3'], padded_of [' ', ' '] _ [] (by decide), (C110_int _ 3).mp (by decide)⟩
        · exact ⟨rfl, ['4'], padded_of [' ', ' '] _ [] (by decide), (C110_int _ 4).mp (by decide)⟩
      · exact ⟨_, _, rfl, rfl, z14, _, _, rfl, rfl, ⟨"2.500000E-01".toList, padded_of [' ', ' '] _ [] (by decide),
          num_of_pyFloat (x := quarter64) (by decide +kernel) (by decide +kernel)⟩, _, _, rfl, rfl, z14, _, _, rfl, rfl, z14, _, _, rfl, rfl, z14, rfl⟩
  · intro l hl
    rw [← isBcHead_iff]
    revert l
    cases first <;> decide +kernel

/-- The text of the file. -/
def foreignText (first : Bool) : Text := (foreign first).lines.flatten

theorem foreign_lines (first : Bool) : LinesOf (foreignText first) (foreign first).lines := by
  refine ⟨rfl, ?_, ?_⟩ <;> cases first <;> decide +kernel

/-- `ValueError` was raised. -/
def refused {α : Type} : Py α → Bool
  | .error .valueError => true
  | _ => false

theorem refused_eq {α : Type} {r : Py α} (h : refused r = true) : r = .error .valueError := by
  unfold refused at h
  split at h
  · rfl
  · cases h

end Samples

open Samples

/-- **C119** is false: a file that says that there are no conditions for the velocity before it lists those for the temperature is well formed,
but `readrea` raises `ValueError`. -/
theorem C119_false (native : Endian) : ∃ s P nd nel X C B, LinesOf s P.lines ∧ ReaSays P nd nel X C B ∧ readrea native s = .error .valueError := by
  refine ⟨foreignText true, foreign true, 2, 1, foreignX, foreignC, foreignB, foreign_lines true, foreign_says true, refused_eq ?_⟩
  cases native <;> decide +kernel

/-- With the two fields in the other order the file is read. -/
example (native : Endian) : ∃ M, readrea native (foreignText false) = .ok M ∧ ReaContent (foreign false) 2 1 foreignX foreignC foreignB M :=
  C119_partial native _ _ _ _ _ _ _ (foreign_lines false) (foreign_says false) [(thermal.1, (List.range 4).map wallLine)] [noFluid.1] rfl

end Pymech
