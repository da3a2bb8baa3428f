import Verif.Lemmas.ReaRead

/-!
# Reading a `.rea` file that was written
-/

namespace Pymech
open Spec

theorem getD_app {α : Type} (A B : List α) (n : Nat) (d : α) (h : n < A.length) : (A ++ B).getD n d = A.getD n d := by
  rw [List.getD_eq_getElem?_getD, List.getD_eq_getElem?_getD, List.getElem?_append_left h]

/-! ### The lines before the first element -/

theorem params_read (R : List Text) : readParams 118 (reaParams.map lineT ++ R) = .ok () := by
  unfold readParams
  apply forM_ok
  intro k hk
  rw [List.mem_range] at hk
  have hlen : (reaParams.map lineT).length = 118 := by decide +kernel
  have h : ∀ k < 118, (floatWord ((reaParams.map lineT).getD k []) 0).toOption.isSome = true := by decide +kernel
  have hk' := h k hk
  rw [getD_app _ _ _ _ (by omega)]
  cases hf : floatWord ((reaParams.map lineT).getD k []) 0 with
  | ok x => rfl
  | error e => rw [hf] at hk'; simp [Except.toOption] at hk'

theorem intWord_pad (a w t : Text) (i : Int) (n : Nat) (ha : splitU a = []) (hw : w = decI i) :
    intWord (lineT (a ++ ' ' :: (rjust n w ++ ' ' :: t))) = .ok i := by
  subst hw
  rw [intWord_of _ (decI i) (splitU t), pyInt_decI]
  · rfl
  · rw [splitU_line, splitU_append _ _ (by decide), ha, splitU_append _ _ (by decide), splitU_rjust _ _ (noBlank_decI _) (decI_ne_nil _)]
    rfl

theorem drop_app {α : Type} (A B : List α) (n : Nat) (h : n ≤ A.length) : (A ++ B).drop n = A.drop n ++ B := List.drop_append_of_le_length h

/-- The part of `readrea` up to the number of elements. -/
theorem readrea_top (native : Endian) (s : Text) (nel nd : Nat) (hd : 1 ≤ nd) (R : List Text)
    (hl : linesT s = (topT nel nd).map lineT ++ R) :
    readrea native s = readMesh native nd nel ((linesT s).filter isBcHead).length R := by
  have hlp : (reaParams.map lineT).length = 118 := by decide +kernel
  have hls : (reaSwitches.map lineT).length = 20 := by decide +kernel
  have e : linesT s = lineT "****** PARAMETERS ******".toList :: lineT "   2.6000     NEKTON VERSION".toList ::
      lineT ("   ".toList ++ decI nd ++ " DIMENSIONAL RUN".toList) :: lineT "         118 PARAMETERS FOLLOW".toList ::
      (reaParams.map lineT ++ (reaSwitches.map lineT ++
        (lineT "  ***** MESH DATA *****  6 lines are X,Y,Z;X,Y,Z. Columns corners 1-4;5-8".toList :: lineT (reaNel nel nd) :: R))) := by
    rw [hl]
    unfold topT reaHead
    simp only [List.map_append, List.map_cons, List.append_assoc, List.cons_append, List.map_nil, List.nil_append]
  have h2 : intWord (lineT ("   ".toList ++ decI nd ++ " DIMENSIONAL RUN".toList)) = .ok (nd : Int) := by
    have := intWord_pad "  ".toList (decI nd) "DIMENSIONAL RUN".toList nd 0 (by decide) rfl
    simp only [rjust, Nat.zero_sub, List.replicate_zero, List.nil_append] at this
    rw [← this]
    rfl
  have h3 : intWord (lineT "         118 PARAMETERS FOLLOW".toList) = .ok 118 := by decide +kernel
  have h4 : intWord ((reaSwitches.map lineT).getD 0 []) = .ok 4 := by decide +kernel
  have h5 : intWord (((reaSwitches.map lineT).drop 5).getD 0 []) = .ok 13 := by decide +kernel
  have h6 : intWord (lineT (reaNel nel nd)) = .ok (nel : Int) := by
    have := intWord_pad " ".toList (decI nel) (decI nd ++ ' ' :: (rjust 10 (decI nel) ++ " NEL,NDIM,NELV".toList)) nel 10 (by decide) rfl
    rw [← this]
    unfold reaNel
    simp only [List.append_assoc, List.cons_append, List.nil_append]
    rfl
  unfold readrea
  simp only
  generalize ((linesT s).filter isBcHead).length = nbc
  rw [e]
  generalize lineT "  ***** MESH DATA *****  6 lines are X,Y,Z;X,Y,Z. Columns corners 1-4;5-8".toList = m0
  generalize lineT (reaNel nel nd) = m1 at *
  generalize reaSwitches.map lineT = S at *
  have hp := params_read (S ++ (m0 :: m1 :: R))
  generalize reaParams.map lineT = P at *
  simp only [List.getD_cons_succ, List.getD_cons_zero]
  rw [h2, h3]
  simp only [bind, Except.bind]
  rw [if_neg (by norm_num)]
  have t118 : (118 : Int).toNat = 118 := rfl
  have t4 : (4 : Int).toNat = 4 := rfl
  have t13 : (13 : Int).toNat = 13 := rfl
  rw [t118]
  simp only [List.drop_succ_cons, List.drop_zero, Nat.reduceAdd]
  rw [hp]
  simp only
  rw [List.drop_left' hlp, getD_app _ _ _ _ (by omega), h4]
  simp only
  rw [t4, drop_app S _ (1 + 4) (by omega), getD_app _ _ _ _ (by rw [List.length_drop]; omega), h5]
  simp only
  rw [t13, drop_app (S.drop (1 + 4)) _ (1 + 13) (by rw [List.length_drop]; omega)]
  have hS : ((S.drop (1 + 4)).drop (1 + 13)).length = 1 := by rw [List.length_drop, List.length_drop]; omega
  obtain ⟨x, hx⟩ := List.length_eq_one_iff.mp hS
  rw [hx]
  simp only [List.singleton_append, List.getD_cons_succ, List.getD_cons_zero, List.drop_succ_cons, List.drop_zero]
  rw [h6]
  simp only
  rw [if_neg (by omega)]
  simp

/-! ### Curved sides -/

theorem foldReaCurves (nel : Nat) (hs : nel < 10 ^ 10) (P : Nat × Nat → Nat → F64) (T : Nat × Nat → Name) (L : List (Nat × Nat)) (M : HexaData F64)
    (hl : M.elem.length = nel) (hL : ∀ t ∈ L, t.1 < nel ∧ t.2 < 12 ∧ Label 3 (T t) ∧ T t ≠ []) :
    ∃ M' : HexaData F64, (L.map fun t => lineT (reaCurve nel t.1 t.2 (P t) (T t))).foldlM (putReaCurve nel) M = .ok M' ∧
      M' = { M with elem := M'.elem } ∧ M'.elem.length = M.elem.length ∧
      ∀ i < M.elem.length, M'.el i =
        { M.el i with curv := fun a j => if (i, a) ∈ L ∧ j < 5 then printed 6 (P (i, a) j) else (M.el i).curv a j
                      ccurv := fun a => if (i, a) ∈ L then T (i, a) else (M.el i).ccurv a } := by
  induction L generalizing M with
  | nil => exact ⟨M, rfl, rfl, rfl, fun i _ => by simp⟩
  | cons t L ih =>
    obtain ⟨h1, h2, h3, h4⟩ := hL t List.mem_cons_self
    have hstep := putReaCurve_ok M nel t.1 t.2 (P t) (T t) h1 hs h2 hl h3 h4
    obtain ⟨M', hf, hM, hl', he⟩ := ih { M with elem := M.elem.modify t.1 fun el => el.setCurve t.2 (fun j => printed 6 (P t j)) (T t) }
      (by simpa using hl) fun u hu => hL u (List.mem_cons_of_mem _ hu)
    rw [List.length_modify] at hl'
    refine ⟨M', ?_, by rw [hM], hl', ?_⟩
    · rw [List.map_cons, List.foldlM_cons, hstep]
      exact hf
    · intro i hi
      rw [he i (by rw [List.length_modify]; exact hi), el_modify _ _ _ _ hi]
      by_cases hit : i = t.1
      · subst hit
        simp only [if_true, Elem.setCurve]
        congr 1
        · funext a j
          by_cases ha : a = t.2
          · subst ha
            simp only [List.mem_cons, true_or, true_and, Prod.mk.eta]
            split_ifs <;> first | rfl | tauto
          · simp [List.mem_cons, ha, Prod.ext_iff]
        · funext a
          by_cases ha : a = t.2
          · subst ha
            simp
          · simp [List.mem_cons, ha, Prod.ext_iff]
      · simp [hit, List.mem_cons, Prod.ext_iff]

theorem foldlM_lines {α : Type} (f : α → Text → Py α) (E ls : List Text) (c : Nat) (h : ∀ k < E.length, ls[c + k]? = E[k]?) (a : α) :
    (List.range E.length).foldlM (fun M k => f M (ls.getD (c + k) [])) a = E.foldlM f a := by
  have e : E = (List.range E.length).map fun k => ls.getD (c + k) [] := by
    apply List.ext_getElem?
    intro k
    by_cases hk : k < E.length
    · rw [List.getElem?_map, List.getElem?_range hk, Option.map_some, List.getD_eq_getElem?_getD, h k hk, List.getElem?_eq_getElem hk]
      rfl
    · rw [List.getElem?_eq_none (by omega), List.getElem?_eq_none (by simpa using hk)]
  conv_rhs => rw [e]
  rw [List.foldlM_map]

/-! ### The mesh -/

/-- The element read. -/
def reaElem (M : HexaData F64) (i : Nat) : Elem F64 where
  pos := readArr M.ndim (M.el i).pos
  vel := Arr.zeros 3 2 2 (M.ndim - 1)
  pres := Arr.zeros 0 2 2 (M.ndim - 1)
  temp := Arr.zeros 0 2 2 (M.ndim - 1)
  scal := Arr.zeros 0 2 2 (M.ndim - 1)
  curv := fun e j => if (i, e) ∈ reaEdges M ∧ j < 5 then printed 6 ((M.el i).curv e j) else 0
  ccurv := fun e => if (i, e) ∈ reaEdges M then (M.el i).ccurv e else []
  rows := M.nbc
  bcs := fun b f => if b < M.nbc ∧ f < 2 * M.ndim then bcV M.nel i f ((M.bc i b f).mark i f) else BC.zero

/-- The mesh read. -/
def reaImage (native : Endian) (M : HexaData F64) : HexaData F64 where
  ndim := M.ndim
  nel := M.nel
  ncurv := (reaEdges M).length
  nbc := M.nbc
  var := ⟨M.ndim, 0, 0, 0, 0⟩
  lr1 := ⟨2, 2, M.ndim - 1, true⟩
  time := 0
  istep := 0
  wdsz := 8
  endian := some native
  elem := (List.range M.nel).map (reaElem M)
  elmap := (List.range M.nel).map fun i : Nat => (i : Int) + 1

theorem mark_fits {M : HexaData F64} (h : ReaMesh M) {i b f : Nat} (hi : i < M.nel) (hb : b < M.nbc) (hf : f < 2 * M.ndim) :
    FitsColumns M.nel ((M.bc i b f).mark i f) := by
  unfold BC.mark
  split
  · rename_i he
    have hs := h.size
    have hd := h.dim
    refine ⟨fun h3 => ?_, fun h3 h6 => ?_, fun h6 => ?_⟩
    · dsimp only
      refine ⟨?_, ?_, ?_, ?_⟩ <;> omega
    · dsimp only
      refine ⟨?_, ?_⟩ <;> omega
    · dsimp only
      obtain ⟨p1, p2, p3, p4, p5⟩ := h.plain h6 i hi b hb f hf he
      refine ⟨?_, ?_, ?_, ?_, p1, p2, p3, p4, p5⟩ <;> omega
  · rename_i he
    exact h.columns i hi b hb f hf he

theorem fieldT_length (M : HexaData F64) (b : Nat) : ((fieldT M b).map lineT).length = 1 + M.nel * (2 * M.ndim) := by
  rw [List.length_map, fieldT, List.length_cons, List.length_map, prod2_length, List.length_range, List.length_range, Nat.add_comm]

theorem fields_line (M : HexaData F64) (R : List Text) (b i f : Nat) (hb : b < M.nbc) (hi : i < M.nel) (hf : f < 2 * M.ndim) :
    ((fieldsT M).map lineT ++ R)[(1 + M.nel * (2 * M.ndim)) * b + 1 + 2 * M.ndim * i + f]? = some (lineT (bcT M b (i, f))) := by
  have hlt : 1 + (i * (2 * M.ndim) + f) < 1 + M.nel * (2 * M.ndim) := Nat.add_lt_add_left (row_lt hi hf) 1
  have e : (1 + M.nel * (2 * M.ndim)) * b + 1 + 2 * M.ndim * i + f = b * (1 + M.nel * (2 * M.ndim)) + (1 + (i * (2 * M.ndim) + f)) := by ring
  unfold fieldsT
  rw [if_neg (by omega), List.map_flatMap, e]
  have hlen := length_flatMap_range M.nbc (1 + M.nel * (2 * M.ndim)) (fun b => (fieldT M b).map lineT) fun b _ => fieldT_length M b
  rw [List.getElem?_append_left (by rw [hlen]; exact row_lt hb hlt),
    getElem?_flatMap_range M.nbc _ (fun b => (fieldT M b).map lineT) (fun b _ => fieldT_length M b) b _ hb hlt]
  rw [fieldT, List.map_cons, Nat.add_comm 1, List.getElem?_cons_succ, List.getElem?_map, List.getElem?_map, getElem?_prod2 _ _ _ _ hi hf]
  rfl

theorem geo_line (M : HexaData F64) (hd : M.ndim = 2 ∨ M.ndim = 3) (R : List Text) (i k : Nat) (hi : i < M.nel) (hk : k < 1 + geoLines M.ndim) :
    ((((List.range M.nel).flatMap (geoT M)).map lineT ++ R).drop ((1 + geoLines M.ndim) * i))[k]? = ((geoT M i).map lineT)[k]? := by
  have hg : ∀ i < M.nel, ((geoT M i).map lineT).length = 1 + geoLines M.ndim := fun i _ => by
    rw [List.length_map]
    exact reaGeo_length M.ndim i hd _
  have hlen := length_flatMap_range M.nel _ _ hg
  rw [List.getElem?_drop, List.map_flatMap, Nat.mul_comm, List.getElem?_append_left (by rw [hlen]; exact row_lt hi hk),
    getElem?_flatMap_range M.nel _ _ hg i k hi hk]

/-- The coordinates. -/
theorem readMesh_geo (native : Endian) (M : HexaData F64) (h : ReaMesh M) (nbc : Nat) (L : List Text) :
    readMesh native M.ndim M.nel nbc (((List.range M.nel).flatMap (geoT M)).map lineT ++ L) =
      readSides native M.ndim M.nel nbc ((List.range M.nel).map fun i => readArr M.ndim (M.el i).pos) L := by
  have hd := h.dim
  have hg : ∀ i < M.nel, ((geoT M i).map lineT).length = 1 + geoLines M.ndim := fun i _ => by
    rw [List.length_map]
    exact reaGeo_length M.ndim i hd _
  have hlen : (((List.range M.nel).flatMap (geoT M)).map lineT).length = (1 + geoLines M.ndim) * M.nel := by
    rw [List.map_flatMap, length_flatMap_range M.nel _ _ hg, Nat.mul_comm]
  unfold readMesh
  simp only
  rw [mapM_eq_ok _ (fun i => readArr M.ndim (M.el i).pos)]
  swap
  · intro i hi
    rw [List.mem_range] at hi
    exact readPos_ok M.ndim i hd (M.el i).pos (h.coords i hi) _ fun k hk => geo_line M hd _ i k hi hk
  simp only [bind, Except.bind]
  rw [List.drop_left' hlen]

/-- The number of curved sides. -/
theorem intWord_curve (n : Nat) (L : List Text) : intWord (((curveTop n).map lineT ++ L).getD 1 []) = .ok (n : Int) := by
  have := intWord_pad " ".toList (decI n) "Curved sides follow IEDGE,IEL,CURVE(I),I=1,5, CCURVE".toList n 10 (by decide) rfl
  rw [← this]
  unfold curveTop
  simp only [List.map_cons, List.cons_append, List.getD_cons_succ, List.getD_cons_zero]
  congr 1

/-- The mesh before curved sides are read. -/
def reaStart (native : Endian) (M : HexaData F64) (nbc n : Nat) : HexaData F64 :=
  { (HexaData.new native M.ndim M.nel ⟨2, 2, M.ndim - 1, true⟩ ⟨M.ndim, 0, 0, 0, 0⟩ nbc : HexaData F64) with
    ncurv := n
    elem := (HexaData.new native M.ndim M.nel ⟨2, 2, M.ndim - 1, true⟩ ⟨M.ndim, 0, 0, 0, 0⟩ nbc : HexaData F64).elem.zipWith
      (fun el p => { el with pos := p }) ((List.range M.nel).map fun i => readArr M.ndim (M.el i).pos) }

theorem reaStart_length (native : Endian) (M : HexaData F64) (nbc n : Nat) : (reaStart native M nbc n).elem.length = M.nel := by
  simp [reaStart, HexaData.new]

theorem reaStart_el (native : Endian) (M : HexaData F64) (nbc n i : Nat) (hi : i < M.nel) :
    (reaStart native M nbc n).el i = { (Elem.new 0 0 0 2 2 (M.ndim - 1) nbc : Elem F64) with pos := readArr M.ndim (M.el i).pos } := by
  unfold HexaData.el
  simp [reaStart, HexaData.new, hi]
  rfl

/-- The part of `readrea` after the coordinates. -/
theorem readSides_top (native : Endian) (M : HexaData F64) (nbc n : Nat) (L : List Text) :
    readSides native M.ndim M.nel nbc ((List.range M.nel).map fun i => readArr M.ndim (M.el i).pos) ((curveTop n).map lineT ++ L) = (do
      let M1 ← (List.range n).foldlM (fun M' k => putReaCurve M.nel M' (((curveTop n).map lineT ++ L).getD (2 + k) [])) (reaStart native M nbc n)
      readFaces M.ndim M.nel nbc M1 (((curveTop n).map lineT ++ L).drop (2 + n + 1))) := by
  unfold readSides
  rw [intWord_curve]
  rfl

/-- The lines of the curved sides. -/
theorem edge_lines (native : Endian) (M : HexaData F64) (h : ReaMesh M) (nbc n : Nat) :
    ∃ M1 : HexaData F64, (((reaEdges M).map (edgeT M)).map lineT).foldlM (putReaCurve M.nel) (reaStart native M nbc n) = .ok M1 ∧
      M1 = { reaStart native M nbc n with elem := M1.elem } ∧ M1.elem.length = M.nel ∧
      ∀ i < M.nel, M1.el i = { (reaStart native M nbc n).el i with
        curv := fun e j => if (i, e) ∈ reaEdges M ∧ j < 5 then printed 6 ((M.el i).curv e j) else ((reaStart native M nbc n).el i).curv e j
        ccurv := fun e => if (i, e) ∈ reaEdges M then (M.el i).ccurv e else ((reaStart native M nbc n).el i).ccurv e } := by
  obtain ⟨M1, hf1, hM1, hl1, he1⟩ := foldReaCurves M.nel h.size (fun t => (M.el t.1).curv t.2) (fun t => (M.el t.1).ccurv t.2) (reaEdges M)
    (reaStart native M nbc n) (reaStart_length native M nbc n) (by
    rintro ⟨i, k⟩ ht
    obtain ⟨a1, a2, a3⟩ := (mem_reaEdges M i k).mp ht
    exact ⟨a1, a2, h.curv i a1 k a2, a3⟩)
  refine ⟨M1, ?_, hM1, by rw [hl1, reaStart_length], fun i hi => he1 i (by rw [reaStart_length]; exact hi)⟩
  rw [List.map_map]
  exact hf1

/-- The part of `readrea` after the coordinates. -/
theorem readSides_ok (native : Endian) (M : HexaData F64) (h : ReaMesh M) (hn : M.ncurv = (reaEdges M).length) (R : List Text) :
    readSides native M.ndim M.nel M.nbc ((List.range M.nel).map fun i => readArr M.ndim (M.el i).pos)
      ((curveTop M.ncurv).map lineT ++ (((reaEdges M).map (edgeT M)).map lineT ++ (lineT bcTop :: ((fieldsT M).map lineT ++ R)))) =
      .ok (reaImage native M) := by
  have hd := h.dim
  rw [readSides_top]
  simp only [bind, Except.bind]
  -- curved sides
  obtain ⟨M1, hf1, hM1, hel1, he1⟩ := edge_lines native M h M.nbc M.ncurv
  have hcur : ∀ E : List Text, E = ((reaEdges M).map (edgeT M)).map lineT → ∀ R' : List Text,
      (List.range M.ncurv).foldlM (fun M' k => putReaCurve M.nel M' (((curveTop M.ncurv).map lineT ++ (E ++ R')).getD (2 + k) []))
        (reaStart native M M.nbc M.ncurv) = .ok M1 := by
    intro E hE R'
    have hEl : M.ncurv = E.length := by rw [hE, List.length_map, List.length_map, hn]
    rw [hEl, foldlM_lines (putReaCurve M.nel) E _ 2 _ _, ← hEl, hE]
    · exact hf1
    · intro k hk
      unfold curveTop
      rw [List.map_cons, List.map_singleton, List.cons_append, List.singleton_append, Nat.add_comm 2 k, List.getElem?_cons_succ, List.getElem?_cons_succ,
        List.getElem?_append_left hk]
  rw [hcur _ rfl]
  simp only
  have hdr : ((curveTop M.ncurv).map lineT ++ (((reaEdges M).map (edgeT M)).map lineT ++ (lineT bcTop :: ((fieldsT M).map lineT ++ R)))).drop
      (2 + M.ncurv + 1) = (fieldsT M).map lineT ++ R := by
    have : (curveTop M.ncurv).map lineT ++ (((reaEdges M).map (edgeT M)).map lineT ++ (lineT bcTop :: ((fieldsT M).map lineT ++ R))) =
        ((curveTop M.ncurv).map lineT ++ ((reaEdges M).map (edgeT M)).map lineT ++ [lineT bcTop]) ++ ((fieldsT M).map lineT ++ R) := by simp
    rw [this, List.drop_left' (by simp [curveTop]; omega)]
  rw [hdr]
  -- boundary conditions
  unfold readFaces
  simp only
  rw [mapM_eq_ok _ (fun t => bcV M.nel t.2.1 t.2.2 ((M.bc t.2.1 t.1 t.2.2).mark t.2.1 t.2.2))]
  swap
  · rintro ⟨b, i, f⟩ ht
    rw [mem_prod3, List.mem_range, List.mem_range, List.mem_range] at ht
    obtain ⟨t1, t2, t3⟩ := ht
    dsimp only at t1 t2 t3 ⊢
    rw [List.getD_eq_getElem?_getD, fields_line M R b i f t1 t2 t3, Option.getD_some]
    exact readBC_ok M.nel i f (by omega) _ (mark_label (h.names i t2 b t1 f t3)) (mark_fits h t2 t1 t3)
  simp only [bind, Except.bind, pure, Except.pure]
  congr 1
  have hel : ∀ g : Nat → Elem F64 → Elem F64, (∀ i < M.nel, g i (M1.el i) = reaElem M i) → M1.elem.mapIdx g = (List.range M.nel).map (reaElem M) := by
    intro g hg
    apply List.ext_getElem?
    intro i
    by_cases hi : i < M.nel
    · rw [List.getElem?_mapIdx, List.getElem?_map, List.getElem?_range hi, List.getElem?_eq_getElem (by omega)]
      simp only [Option.map_some]
      rw [← hg i hi]
      unfold HexaData.el
      rw [List.getD_eq_getElem?_getD, List.getElem?_eq_getElem (by omega)]
      rfl
    · rw [List.getElem?_eq_none (by simp; omega), List.getElem?_eq_none (by simp; omega)]
  rw [hel]
  · rw [hM1]
    unfold reaImage
    rw [← hn]
    rfl
  · intro i hi
    rw [he1 i hi, reaStart_el native M _ _ i hi]
    unfold reaElem Elem.new
    simp only [Elem.mk.injEq, true_and]
    funext b f
    by_cases hbf : b < M.nbc ∧ f < 2 * M.ndim
    · rw [if_pos hbf, if_pos hbf, List.getD_eq_getElem?_getD, List.getElem?_map, getElem?_prod3 _ _ _ b i f hbf.1 hi hbf.2]
      rfl
    · rw [if_neg hbf, if_neg hbf]

theorem reaEdges_length (M : HexaData F64) (h : M.elem.length = M.nel) : (reaEdges M).length = curvedCount M := by
  rw [← curvedEdges_count]
  unfold reaEdges curvedEdges
  rw [h]

/-- Reading what was written, up to the curved sides. -/
theorem readrea_sides (native : Endian) (M : HexaData F64) (h : ReaMesh M) :
    readrea native (writerea M).1 = readSides native M.ndim M.nel (max 1 M.nbc) ((List.range M.nel).map fun i => readArr M.ndim (M.el i).pos)
      ((curveTop M.ncurv).map lineT ++ (((reaEdges M).map (edgeT M)).map lineT ++ (lineT bcTop :: ((fieldsT M).map lineT ++ (restT M.nbc).map lineT)))) := by
  rw [writerea_ok M h]
  dsimp only
  have hl := linesT_lines (reaText M) (reaText_lines M h)
  rw [readrea_top native _ M.nel M.ndim (by have := h.dim; omega) _ (by rw [hl]; unfold reaText; rw [List.map_append]), hl, reaText_heads M h,
    List.map_append, readMesh_geo native M h]
  simp only [List.map_append, List.map_cons]

/-- The mesh read from a file that was written. -/
theorem rea_roundtrip (native : Endian) (M : HexaData F64) (h : ReaMesh M) (hb : 0 < M.nbc) (hn : M.ncurv = curvedCount M) :
    readrea native (writerea M).1 = .ok (reaImage native M) := by
  rw [readrea_sides native M h, max_eq_right (by omega), readSides_ok native M h (by rw [reaEdges_length M h.len, hn])]

end Pymech
