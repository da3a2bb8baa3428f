import Verif.Props.ReaCrop
import Verif.Props.Rea

/-!
# C121: files written by `writerea` that lost their end
-/

set_option autoImplicit false

namespace Pymech

open Spec

/-! ### The line with the number of curved edges -/

/-- The number of curved edges is on line `c`. -/
def CountAt (ls : List Text) (c : Nat) : Prop :=
  ∃ nd npar nscal nsw nel : Int, intWord (ls.getD 2 []) = .ok nd ∧ intWord (ls.getD 3 []) = .ok npar ∧
    intWord (ls.getD (4 + npar.toNat) []) = .ok nscal ∧ intWord (ls.getD (4 + npar.toNat + (1 + nscal.toNat)) []) = .ok nsw ∧
    intWord (ls.getD (4 + npar.toNat + (1 + nscal.toNat) + (1 + nsw.toNat) + 2) []) = .ok nel ∧
    c = 4 + npar.toNat + (1 + nscal.toNat) + (1 + nsw.toNat) + 3 + ((1 + geoLines nd.toNat) * nel.toNat + 1)

theorem CountAt.unique {ls : List Text} {c c' : Nat} (h : CountAt ls c) (h' : CountAt ls c') : c' = c := by
  obtain ⟨nd, npar, nscal, nsw, nel, h1, h2, h3, h4, h5, rfl⟩ := h
  obtain ⟨nd', npar', nscal', nsw', nel', g1, g2, g3, g4, g5, rfl⟩ := h'
  rw [h1] at g1; cases g1
  rw [h2] at g2; cases g2
  rw [h3] at g3; cases g3
  rw [h4] at g4; cases g4
  rw [h5] at g5; cases g5
  rfl

theorem CountAt.uncrop {ls ls' : List Text} {K c : Nat} (hc : Cropped K ls ls') (h : CountAt ls' c) (hK : c ≤ K) : CountAt ls c := by
  obtain ⟨nd, npar, nscal, nsw, nel, h1, h2, h3, h4, h5, rfl⟩ := h
  rw [hc.before _ (by omega)] at h1 h2 h3 h4 h5
  exact ⟨nd, npar, nscal, nsw, nel, h1, h2, h3, h4, h5, rfl⟩

theorem readLines_count {native : Endian} {nbc : Nat} {ls : List Text} {M : HexaData F64} (h : readLines native nbc ls = .ok M) :
    ∃ c nc, CountAt ls c ∧ intWord (ls.getD c []) = .ok nc ∧ M.ncurv = nc.toNat := by
  obtain ⟨nd, npar, nscal, nsw, nel, h0, h1, h2, h3, h4, h5, h6⟩ := readLines_inv h
  unfold readMesh at h6
  dsimp only at h6
  obtain ⟨ps, hps, h6⟩ := py_bind.mp h6
  have hlen : ps.length = nel.toNat := by
    have := (mapM_ok_inv _ _ _ hps).length_eq
    simpa using this.symm
  obtain ⟨nc, A, g1, g2, g3⟩ := readSides_inv h6
  rw [getD_drop, getD_drop] at g1
  refine ⟨_, nc, ⟨nd, npar, nscal, nsw, nel, h1, h2, h3, h4, h5, rfl⟩, g1, ?_⟩
  obtain ⟨-, oA, -⟩ := fold_curves (fun k => ((ls.drop (4 + npar.toNat + (1 + nscal.toNat) + (1 + nsw.toNat) + 3)).drop
    ((1 + geoLines nd.toNat) * nel.toNat)).getD (2 + k) []) (fun k => ((ls.drop (4 + npar.toNat + (1 + nscal.toNat) + (1 + nsw.toNat) + 3)).drop
    ((1 + geoLines nd.toNat) * nel.toNat)).getD (2 + k) []) _ _ _ _ _ (fun _ _ => rfl) ⟨rfl, fun _ _ => ⟨rfl, rfl, rfl⟩⟩ g2 g2
  obtain ⟨m1, -⟩ := readFaces_inv g3 (by rw [oA.2, sideStart_length _ _ _ _ _ _ hlen])
  rw [m1, oA.1]
  rfl

/-- The number of curved edges that is read from the remaining text is that of the beginning of the line. -/
theorem count_crop {native : Endian} {nbc' K : Nat} {ls ls' : List Text} {M' : HexaData F64} (hc : Cropped K ls ls')
    (h' : readLines native nbc' ls' = .ok M') :
    ∃ c nc', CountAt ls c ∧ ls'.getD c [] <+: ls.getD c [] ∧ intWord (ls'.getD c []) = .ok nc' ∧ M'.ncurv = nc'.toNat := by
  obtain ⟨c, nc', h1, h2, h3⟩ := readLines_count h'
  have hK := hc.le _ (intWord_ne h2)
  refine ⟨c, nc', h1.uncrop hc hK, ?_, h2, h3⟩
  rcases Nat.lt_or_eq_of_le hK with hlt | rfl
  · rw [hc.before _ hlt]
  · exact hc.here

/-- The beginning of the digits of a positive number is a positive number. -/
theorem prefix_pos (n : Nat) (hn : 0 < n) (t : Text) (hne : t ≠ []) (ht : t <+: decI n) (z : Int) (hz : pyInt t = some z) : 0 < z := by
  have hhead : ∀ n, 0 < n → ∃ d l, digitsN n = d :: l ∧ 0 < d := by
    intro n
    induction n using Nat.strong_induction_on with
    | _ n ih =>
      intro hn
      rw [digitsN]
      split
      · exact ⟨n, [], rfl, hn⟩
      · obtain ⟨d, l, e, hd⟩ := ih (n / 10) (by omega) (by omega)
        exact ⟨d, l ++ [n % 10], by rw [e]; rfl, hd⟩
  obtain ⟨d, l, e, hd⟩ := hhead n hn
  rw [decI_nat, decN_eq, e] at ht
  have hlt := digitsN_lt n
  rw [e] at hlt
  obtain ⟨k, rfl⟩ : ∃ k, t = ((d :: l).take (k + 1)).map digitC := by
    rw [List.prefix_iff_eq_take] at ht
    cases hk : t.length with
    | zero => exact absurd (List.length_eq_zero_iff.mp hk) hne
    | succ k => exact ⟨k, by rw [ht, hk, List.map_take]⟩
  rw [List.take_succ_cons] at hz
  have hd10 : d < 10 := hlt d (by simp)
  have hl10 : ∀ x ∈ d :: l.take k, x < 10 := by
    intro x hx
    rcases List.mem_cons.mp hx with rfl | hx
    · exact hd10
    · exact hlt x (List.mem_cons_of_mem _ (List.mem_of_mem_take hx))
  rw [pyInt, List.map_cons, signOf_digit d hd10, ← List.map_cons] at hz
  dsimp only at hz
  rw [runV_digits _ hl10 (by simp)] at hz
  simp only [Option.map_some, Option.some.injEq, Bool.false_eq_true, if_false] at hz
  rw [← hz]
  have : digVal 0 (d :: l.take k) = digVal d (l.take k) := by simp [digVal]
  rw [this, digVal_shift]
  have : 0 < d * 10 ^ (l.take k).length := by positivity
  omega

theorem top_count (nel nd : Nat) (R : List Text) :
    CountAt ((topT nel nd).map lineT ++ R) (144 + ((1 + geoLines nd) * nel + 1)) := by
  have hlp : (reaParams.map lineT).length = 118 := by decide +kernel
  have hls : (reaSwitches.map lineT).length = 20 := by decide +kernel
  have e : (topT nel nd).map lineT ++ R = lineT "****** PARAMETERS ******".toList :: lineT "   2.6000     NEKTON VERSION".toList ::
      lineT ("   ".toList ++ decI nd ++ " DIMENSIONAL RUN".toList) :: lineT "         118 PARAMETERS FOLLOW".toList ::
      (reaParams.map lineT ++ (reaSwitches.map lineT ++
        (lineT "  ***** MESH DATA *****  6 lines are X,Y,Z;X,Y,Z. Columns corners 1-4;5-8".toList :: lineT (reaNel nel nd) :: R))) := by
    unfold topT reaHead
    simp only [List.map_append, List.map_cons, List.append_assoc, List.cons_append, List.map_nil, List.nil_append]
  have h2 : intWord (lineT ("   ".toList ++ decI nd ++ " DIMENSIONAL RUN".toList)) = .ok (nd : Int) := by
    have := intWord_pad "  ".toList (decI nd) "DIMENSIONAL RUN".toList nd 0 (by decide) rfl
    simp only [rjust, Nat.zero_sub, List.replicate_zero, List.nil_append] at this
    rw [← this]
    rfl
  have h3 : intWord (lineT "         118 PARAMETERS FOLLOW".toList) = .ok 118 := by decide +kernel
  have h4 : intWord ((reaSwitches.map lineT).getD 0 []) = .ok 4 := by decide +kernel
  have h5 : intWord ((reaSwitches.map lineT).getD 5 []) = .ok 13 := by decide +kernel
  have h6 : intWord (lineT (reaNel nel nd)) = .ok (nel : Int) := by
    have := intWord_pad " ".toList (decI nel) (decI nd ++ ' ' :: (rjust 10 (decI nel) ++ " NEL,NDIM,NELV".toList)) nel 10 (by decide) rfl
    rw [← this]
    unfold reaNel
    simp only [List.append_assoc, List.cons_append, List.nil_append]
    rfl
  rw [e]
  generalize lineT "  ***** MESH DATA *****  6 lines are X,Y,Z;X,Y,Z. Columns corners 1-4;5-8".toList = m0
  generalize lineT (reaNel nel nd) = m1 at *
  generalize reaSwitches.map lineT = S at *
  generalize reaParams.map lineT = P at *
  generalize lineT ("   ".toList ++ decI nd ++ " DIMENSIONAL RUN".toList) = l2 at *
  generalize lineT "         118 PARAMETERS FOLLOW".toList = l3 at *
  generalize lineT "****** PARAMETERS ******".toList = l0
  generalize lineT "   2.6000     NEKTON VERSION".toList = l1
  clear e
  have g : ∀ i, (l0 :: l1 :: l2 :: l3 :: (P ++ (S ++ (m0 :: m1 :: R)))).getD (122 + i) [] = (S ++ (m0 :: m1 :: R)).getD i [] := by
    intro i
    rw [← getD_drop, show (122 : Nat) = 118 + 4 from rfl, List.drop_succ_cons, List.drop_succ_cons, List.drop_succ_cons, List.drop_succ_cons,
      List.drop_left' hlp]
  refine ⟨nd, 118, 4, 13, nel, h2, h3, ?_, ?_, ?_, rfl⟩
  · rw [show 4 + (118 : Int).toNat = 122 + 0 from rfl, g, getD_app _ _ _ _ (by omega)]
    exact h4
  · rw [show 4 + (118 : Int).toNat + (1 + (4 : Int).toNat) = 122 + 5 from rfl, g, getD_app _ _ _ _ (by omega)]
    exact h5
  · rw [show 4 + (118 : Int).toNat + (1 + (4 : Int).toNat) + (1 + (13 : Int).toNat) + 2 = 122 + (20 + 1) from rfl, g, ← getD_drop, List.drop_left' hls]
    exact h6

/-! ### Titles -/

theorem prefix_line {q l : Text} (h : q <+: lineT l) : q = lineT l ∨ q <+: l := List.prefix_concat_iff.mp h

/-- A line of the text that is cut is a title only if the whole line is one. -/
theorem reaText_titles (M : HexaData F64) (h : ReaMesh M) : ∀ l ∈ (reaText M).map lineT, ∀ q, q <+: l → isBcHead q = true → isBcHead l = true := by
  have dull : ∀ l, Dull l → ∀ q, q <+: lineT l → isBcHead q = true → isBcHead (lineT l) = true := by
    intro l hl q hq ht
    rcases prefix_line hq with rfl | hq
    · exact ht
    · rw [hl.2 q ((List.mem_inits _ _).mpr hq)] at ht
      cases ht
  have title : ∀ b q, q <+: lineT (bcTitle b) → isBcHead q = true → isBcHead (lineT (bcTitle b)) = true := by
    intro b q _ _
    rw [isBcHead_line]
    exact (title_line b).2
  intro x hx
  obtain ⟨l, hm, rfl⟩ := List.mem_map.mp hx
  clear hx
  unfold reaText at hm
  simp only [List.mem_append, List.mem_cons] at hm
  rcases hm with h1 | h1 | h1 | h1 | h1 | h1 | h1
  · exact dull _ (dull_top _ _ l h1)
  · obtain ⟨i, -, h2⟩ := List.mem_flatMap.mp h1
    exact dull _ (dull_geo _ _ _ l h2)
  · exact dull _ (dull_curveTop _ l h1)
  · obtain ⟨⟨i, k⟩, h2, rfl⟩ := List.mem_map.mp h1
    obtain ⟨a1, a2, a3⟩ := (mem_reaEdges M i k).mp h2
    exact dull _ (dull_curve _ _ _ _ _ (h.curv i a1 k a2))
  · rw [h1]
    exact dull _ (by decide +kernel)
  · unfold fieldsT at h1
    split at h1
    · rw [List.mem_singleton] at h1
      rw [h1]
      exact title 0
    · obtain ⟨b, hb, h2⟩ := List.mem_flatMap.mp h1
      rcases List.mem_cons.mp h2 with rfl | h3
      · exact title b
      · obtain ⟨⟨i, f⟩, h4, rfl⟩ := List.mem_map.mp h3
        rw [mem_prod2, List.mem_range, List.mem_range] at h4
        exact dull _ (dull_bc _ _ (mark_label (h.names i h4.1 b (List.mem_range.mp hb) f h4.2)))
  · exact dull _ (dull_rest _ l h1)

/-! ### The theorem -/

/-- The meshes agree except possibly in the last number of the last condition. -/
structure SameButLast (A B : HexaData F64) : Prop where
  ndim : B.ndim = A.ndim
  nel : B.nel = A.nel
  nbc : B.nbc = A.nbc
  ncurv : B.ncurv = A.ncurv
  len : B.elem.length = A.nel
  el : ∀ i < A.nel, (B.el i).pos = (A.el i).pos ∧ (B.el i).curv = (A.el i).curv ∧ ∀ k < 12, (B.el i).ccurv k = (A.el i).ccurv k
  bcs : ∀ i < A.nel, ∀ b < A.nbc, ∀ f < 2 * A.ndim, B.bc i b f = A.bc i b f ∨
    i + 1 = A.nel ∧ b + 1 = A.nbc ∧ f + 1 = 2 * A.ndim ∧ ∃ x, B.bc i b f = { A.bc i b f with p7 := x }

theorem restored_fewer (M M' : HexaData F64) (j : Nat) (hj : j ≤ M.nbc) (h : ReaRestored M M') : ReaRestored { M with nbc := j } { M' with nbc := j } where
  ndim := h.ndim
  nel := h.nel
  nbc := rfl
  ncurv := h.ncurv
  len := h.len
  shape := h.shape
  pos := h.pos
  ccurv := h.ccurv
  curv := h.curv
  silent := fun i hi b hb => h.silent i hi b (lt_of_lt_of_le hb hj)
  bcs := fun i hi b hb => h.bcs i hi b (lt_of_lt_of_le hb hj)

/-- **C121** in part, for the files that `writerea` writes (curve types with one letter, as they are in Nek5000): whatever can still be read after
the file lost its end is the mesh with its first `j` fields, complete but for the last number of its last condition. -/
theorem C121_written_partial (native : Endian) (M : HexaData F64) (h : ReaMesh M) (hb : 0 < M.nbc) (hn : M.ncurv = curvedCount M)
    (h1 : ∀ i < M.nel, ∀ e < 12, ((M.el i).ccurv e).length ≤ 1) (m : Nat) (M' : HexaData F64)
    (hr : readrea native ((writerea M).1.take m) = .ok M') :
    ∃ j ≤ M.nbc, ∃ M'', ReaRestored { M with nbc := j } M'' ∧ SameButLast M'' M' := by
  have hfull := rea_roundtrip native M h hb hn
  have hres := reaImage_restored native M h
  have hl := linesT_lines (reaText M) (reaText_lines M h)
  rw [writerea_ok M h] at hr hfull
  dsimp only at hr hfull
  obtain ⟨K, hc⟩ := linesT_crop ((reaText M).map lineT).flatten m
  obtain ⟨hrem, hnb', hnb⟩ := readLines_crop hc hfull hr
  have hj : M'.nbc ≤ M.nbc := by
    rw [hnb']
    have := linesGo_count isBcHead ((reaText M).map lineT).flatten [] m (by
      intro l hm
      have hm : l ∈ linesT ((reaText M).map lineT).flatten := hm
      rw [hl] at hm
      exact reaText_titles M h l hm)
    have e : linesGo [] ((reaText M).map lineT).flatten = linesT ((reaText M).map lineT).flatten := rfl
    rw [e, hl, reaText_heads M h] at this
    exact this.trans (by omega)
  have hcn : M'.ncurv = (reaImage native M).ncurv := by
    obtain ⟨c, nc', c1, c2, c3, c4⟩ := count_crop hc hr
    generalize (linesT (List.take m ((reaText M).map lineT).flatten)).getD c [] = q at c2 c3
    rw [hl] at c1 c2
    have hsplit : (reaText M).map lineT = (topT M.nel M.ndim).map lineT ++ (((List.range M.nel).flatMap (geoT M)).map lineT ++
        ((curveTop M.ncurv).map lineT ++ (((reaEdges M).map (edgeT M)).map lineT ++ (lineT bcTop :: ((fieldsT M).map lineT ++ (restT M.nbc).map lineT))))) := by
      unfold reaText
      simp only [List.map_append, List.map_cons]
    rw [hsplit] at c1 c2
    have hce := (top_count M.nel M.ndim _).unique c1
    have hline : ∀ (L : List Text), (((topT M.nel M.ndim).map lineT ++ (((List.range M.nel).flatMap (geoT M)).map lineT ++
        ((curveTop M.ncurv).map lineT ++ L)))).getD c [] =
        lineT ("  ".toList ++ rjust 10 (decI M.ncurv) ++ " Curved sides follow IEDGE,IEL,CURVE(I),I=1,5, CCURVE".toList) := by
      intro L
      have hlen : ((topT M.nel M.ndim).map lineT).length = 144 := by
        have hlp : reaParams.length = 118 := by decide +kernel
        have hls : reaSwitches.length = 20 := by decide +kernel
        unfold topT reaHead
        simp only [List.length_map, List.length_append, List.length_cons, List.length_nil]
        omega
      have hg : ∀ i < M.nel, ((geoT M i).map lineT).length = 1 + geoLines M.ndim := fun i _ => by
        rw [List.length_map]
        exact reaGeo_length M.ndim i h.dim _
      have hglen : (((List.range M.nel).flatMap (geoT M)).map lineT).length = (1 + geoLines M.ndim) * M.nel := by
        rw [List.map_flatMap, length_flatMap_range M.nel _ _ hg, Nat.mul_comm]
      rw [hce, ← getD_drop, List.drop_left' hlen, ← getD_drop, List.drop_left' hglen]
      rfl
    rw [hline] at c2
    have hw : wordAt (lineT ("  ".toList ++ rjust 10 (decI M.ncurv) ++ " Curved sides follow IEDGE,IEL,CURVE(I),I=1,5, CCURVE".toList)) 0 = .ok (decI M.ncurv) := by
      have e : "  ".toList ++ rjust 10 (decI M.ncurv) ++ " Curved sides follow IEDGE,IEL,CURVE(I),I=1,5, CCURVE".toList =
          " ".toList ++ ' ' :: (rjust 10 (decI M.ncurv) ++ ' ' :: "Curved sides follow IEDGE,IEL,CURVE(I),I=1,5, CCURVE".toList) := by
        rw [show "  ".toList = " ".toList ++ [' '] by decide, show " Curved sides follow IEDGE,IEL,CURVE(I),I=1,5, CCURVE".toList =
          ' ' :: "Curved sides follow IEDGE,IEL,CURVE(I),I=1,5, CCURVE".toList by decide]
        simp only [List.append_assoc, List.cons_append, List.nil_append]
      unfold wordAt
      rw [e, splitU_line, splitU_append _ _ (by decide), splitU_append _ _ (by decide), splitU_rjust _ _ (noBlank_decI _) (decI_ne_nil _)]
      rfl
    unfold intWord at c3
    obtain ⟨t, t1, t2⟩ := py_bind.mp c3
    obtain ⟨u1, u2⟩ := wordAt_cut c2 t1 hw
    have hz : pyInt t = some nc' := by
      cases hp : pyInt t with
      | none => rw [hp] at t2; cases t2
      | some z => rw [hp] at t2; cases t2; rfl
    rcases hrem.curves with hx | hx
    · exact hx.1
    · have hnn : (reaImage native M).ncurv = M.ncurv := by rw [hres.ncurv, hn]
      by_cases h0 : M.ncurv = 0
      · rw [hx.1, hnn, h0]
      · have := prefix_pos M.ncurv (by omega) t u1 u2 nc' hz
        omega
  have hcur : ∀ i < M.nel, (M'.el i).curv = ((reaImage native M).el i).curv ∧ ∀ k < 12, (M'.el i).ccurv k = ((reaImage native M).el i).ccurv k := by
    rcases hrem.curves with ⟨-, i0, k0, hx⟩ | hx
    · intro i hi
      obtain ⟨a, b⟩ := hx i hi
      refine ⟨a, fun k hk => ?_⟩
      rcases b k with b | ⟨-, -, b1, b2⟩
      · exact b
      · rw [hres.ccurv i hi k hk] at b2 ⊢
        refine b2.eq_of_length ?_
        have := b2.length_le
        have := h1 i hi k hk
        have := List.length_pos_iff.mpr b1
        omega
    · have hz : (reaEdges M).length = 0 := by
        have : (reaImage native M).ncurv = (reaEdges M).length := rfl
        rw [← this, ← hcn, hx.1]
      have hnil : reaEdges M = [] := List.length_eq_zero_iff.mp hz
      intro i hi
      have hs : ∀ k, (M'.el i).ccurv k = [] ∧ ∀ j, (M'.el i).curv k j = 0 := hx.2 i hi
      have hel : (reaImage native M).el i = reaElem M i := by
        unfold reaImage HexaData.el
        rw [List.getD_eq_getElem?_getD, List.getElem?_map, List.getElem?_range hi]
        rfl
      rw [hel]
      constructor
      · funext k j
        rw [(hs k).2 j]
        simp [reaElem, hnil]
      · intro k _
        rw [(hs k).1]
        simp [reaElem, hnil]
  refine ⟨M'.nbc, hj, { reaImage native M with nbc := M'.nbc }, restored_fewer M _ _ hj hres, hrem.ndim, hrem.nel, rfl, hcn, hrem.len.2, ?_, ?_⟩
  · intro i hi
    exact ⟨hrem.pos i hi, (hcur i hi).1, (hcur i hi).2⟩
  · intro i hi b hbb f hf
    have hbl : b < (reaImage native M).nbc := lt_of_lt_of_le hbb hj
    exact hrem.bcs i hi b hbb hbl f hf

/-! ### Files without their last fields -/

/-- The lines before the title of field `j`. -/
def reaUpTo (M : HexaData F64) (j : Nat) : List Text :=
  topT M.nel M.ndim ++ ((List.range M.nel).flatMap (geoT M) ++ (curveTop M.ncurv ++ ((reaEdges M).map (edgeT M) ++
    (bcTop :: (List.range j).flatMap (fieldT M)))))

theorem reaUpTo_prefix (M : HexaData F64) (j : Nat) (hj : j < M.nbc) : ∃ R, reaText M = reaUpTo M j ++ bcTitle j :: R := by
  have e : fieldsT M = (List.range j).flatMap (fieldT M) ++ (bcTitle j :: ((prod2 (List.range M.nel) (List.range (2 * M.ndim))).map (bcT M j) ++
      (List.range' (j + 1) (M.nbc - (j + 1))).flatMap (fieldT M))) := by
    unfold fieldsT
    rw [if_neg (by omega), List.range_eq_range', show M.nbc = j + (1 + (M.nbc - (j + 1))) by omega, ← List.range'_append_1, ← List.range'_append_1,
      List.flatMap_append, List.flatMap_append, List.range_eq_range']
    simp [fieldT]
    congr 2
    omega
  refine ⟨(prod2 (List.range M.nel) (List.range (2 * M.ndim))).map (bcT M j) ++ (List.range' (j + 1) (M.nbc - (j + 1))).flatMap (fieldT M) ++ restT M.nbc, ?_⟩
  unfold reaText reaUpTo
  rw [e]
  simp only [List.append_assoc, List.cons_append]

theorem reaMesh_fields (M : HexaData F64) (h : ReaMesh M) (j : Nat) (hj : j ≤ M.nbc) : ReaMesh { M with nbc := j } where
  dim := h.dim
  len := h.len
  size := h.size
  shape := h.shape
  coords := h.coords
  rows := fun i hi => hj.trans (h.rows i hi)
  curv := h.curv
  names := fun i hi b hb => h.names i hi b (lt_of_lt_of_le hb hj)
  columns := fun i hi b hb => h.columns i hi b (lt_of_lt_of_le hb hj)
  plain := fun hn i hi b hb => h.plain hn i hi b (lt_of_lt_of_le hb hj)

theorem reaText_fields (M : HexaData F64) (j : Nat) : reaText { M with nbc := j } =
    topT M.nel M.ndim ++ ((List.range M.nel).flatMap (geoT M) ++ (curveTop M.ncurv ++ ((reaEdges M).map (edgeT M) ++
    (bcTop :: ((if j = 0 then [bcTitle 0] else (List.range j).flatMap (fieldT M)) ++ restT j))))) := by
  have e1 : geoT { M with nbc := j } = geoT M := rfl
  have e2 : edgeT { M with nbc := j } = edgeT M := rfl
  have e3 : fieldT { M with nbc := j } = fieldT M := rfl
  have e4 : reaEdges { M with nbc := j } = reaEdges M := rfl
  unfold reaText fieldsT
  rw [e1, e2, e3, e4]

theorem reaUpTo_heads (M : HexaData F64) (h : ReaMesh M) (j : Nat) (hj : j ≤ M.nbc) : (((reaUpTo M j).map lineT).filter isBcHead).length = j := by
  have hM := reaMesh_fields M h j hj
  have hh : (((reaText { M with nbc := j }).map lineT).filter isBcHead).length = max 1 j := reaText_heads _ hM
  have hr : ((restT j).map lineT).countP isBcHead = 0 := count_dull _ (dull_rest _)
  rw [← List.countP_eq_length_filter] at hh ⊢
  by_cases h0 : j = 0
  · have e : reaText { M with nbc := j } = reaUpTo M j ++ (bcTitle 0 :: restT j) := by
      rw [reaText_fields, if_pos h0, h0]
      unfold reaUpTo
      simp only [List.range_zero, List.flatMap_nil, List.append_assoc, List.cons_append, List.nil_append]
    rw [e, List.map_append, List.countP_append, List.map_cons, List.countP_cons, hr, isBcHead_line, (title_line 0).2, if_pos rfl] at hh
    generalize ((reaUpTo M j).map lineT).countP isBcHead = x at hh ⊢
    clear * - hh h0
    omega
  · have e : reaText { M with nbc := j } = reaUpTo M j ++ restT j := by
      rw [reaText_fields, if_neg h0]
      unfold reaUpTo
      simp only [List.append_assoc, List.cons_append]
    rw [e, List.map_append, List.countP_append, hr] at hh
    generalize ((reaUpTo M j).map lineT).countP isBcHead = x at hh ⊢
    clear * - hh h0
    omega

/-- Without conditions only the lines of the curved edges matter. -/
theorem readSides_zero (native : Endian) (nd nel n : Nat) (ps : List (Arr F64)) (ls R : List Text) (h : intWord (ls.getD 1 []) = .ok (n : Int))
    (hl : 2 + n ≤ ls.length) : readSides native nd nel 0 ps (ls ++ R) = readSides native nd nel 0 ps ls := by
  have g : ∀ i < 2 + n, (ls ++ R).getD i [] = ls.getD i [] := fun i hi => getD_app _ _ _ _ (by omega)
  have hf : ∀ (A : HexaData F64) (L L' : List Text), readFaces nd nel 0 A L = readFaces nd nel 0 A L' := fun _ _ _ => rfl
  have key : ∀ (p : Nat) (S : HexaData F64), p ≤ n → (List.range p).foldlM (fun M k => putReaCurve nel M ((ls ++ R).getD (2 + k) [])) S =
      (List.range p).foldlM (fun M k => putReaCurve nel M (ls.getD (2 + k) [])) S := by
    intro p
    induction p with
    | zero => intro S _; rfl
    | succ p ih =>
      intro S hp
      rw [List.range_succ, List.foldlM_append, List.foldlM_append, ih S (by omega)]
      simp only [List.foldlM_cons, List.foldlM_nil]
      rw [g _ (by omega)]
  unfold readSides
  rw [g 1 (by omega), h]
  simp only [bind, Except.bind, Int.toNat_natCast]
  rw [key n _ (le_refl _)]
  split
  · rfl
  · rw [hf]

/-- **C121** is false: every file that `writerea` writes for a mesh with boundary conditions can lose its fields from any field `j` on, and
is still read, as a mesh with the first `j` fields. -/
theorem C121_false (native : Endian) (M : HexaData F64) (h : ReaMesh M) (hn : M.ncurv = curvedCount M) (j : Nat) (hj : j < M.nbc) :
    ∃ m < (writerea M).1.length, ∃ M', readrea native ((writerea M).1.take m) = .ok M' ∧ ReaRestored { M with nbc := j } M' := by
  obtain ⟨R, hR⟩ := reaUpTo_prefix M j hj
  have hM := reaMesh_fields M h j hj.le
  have hne : M.ncurv = (reaEdges M).length := by rw [reaEdges_length M h.len, hn]
  rw [writerea_ok M h]
  dsimp only
  have ht : ((reaText M).map lineT).flatten = ((reaUpTo M j).map lineT).flatten ++ ((bcTitle j :: R).map lineT).flatten := by
    rw [hR, List.map_append, List.flatten_append]
  refine ⟨((reaUpTo M j).map lineT).flatten.length, ?_, reaImage native { M with nbc := j }, ?_, reaImage_restored native _ hM⟩
  · rw [ht, List.length_append, List.map_cons, List.flatten_cons, List.length_append]
    have : 0 < (lineT (bcTitle j)).length := by simp [lineT]
    omega
  · rw [ht, List.take_left]
    have hl := linesT_lines (reaUpTo M j) fun l hl => reaText_lines M h l (by rw [hR]; exact List.mem_append_left _ hl)
    rw [readrea_top native _ M.nel M.ndim (by have := h.dim; omega) _ (by rw [hl]; unfold reaUpTo; rw [List.map_append]), hl, reaUpTo_heads M h j hj.le,
      List.map_append, readMesh_geo native M h]
    simp only [List.map_append, List.map_cons]
    by_cases h0 : j = 0
    · subst h0
      have := readSides_ok native { M with nbc := 0 } hM hne []
      rw [← this]
      have e := readSides_zero native M.ndim M.nel M.ncurv ((List.range M.nel).map fun i => readArr M.ndim (M.el i).pos)
        ((curveTop M.ncurv).map lineT ++ (((reaEdges M).map (edgeT M)).map lineT ++ [lineT bcTop])) [lineT (bcTitle 0)] (intWord_curve _ _) (by
          simp [curveTop, hne]
          omega)
      simp only [List.range_zero, List.flatMap_nil, List.map_nil]
      rw [← e]
      simp only [List.append_assoc, List.cons_append, List.nil_append]
      rfl
    · have := readSides_ok native { M with nbc := j } hM hne []
      rw [← this]
      have e : fieldsT { M with nbc := j } = (List.range j).flatMap (fieldT M) := by
        unfold fieldsT
        rw [if_neg h0]
        rfl
      rw [e, List.append_nil]
      rfl

/-! ### Concrete texts -/

namespace Samples

/-- The line of a wall, the last number of which is not zero. -/
def lastLine (f : Nat) : Text :=
  [' '] ++ "W ".toList ++ [' '] ++ ("  1".toList ++ ("  ".toList ++ Nat.toDigits 10 (f + 1))) ++
    (zero14 ++ (zero14 ++ (zero14 ++ (zero14 ++ "  2.500000E-01".toList)))) ++ ['\n']

/-- The text of `foreign` up to its last condition. -/
def cropText : Text :=
  ({ foreign false with fields := [("  ***** THERMAL BOUNDARY CONDITIONS *****\n".toList, some ((List.range 4).map lastLine))], rest := [] } : ReaParts).lines.flatten

def big64 : F64 := Flt.ofRat false (5 / 2)

/-- What is read has `n` fields, and the last number of the last condition is `x`. -/
def lastIs (r : Py (HexaData F64)) (n : Nat) (x : F64) : Bool := match r with
  | .ok M => decide (M.nbc = n ∧ (M.bc 0 0 3).p7 = x)
  | .error _ => false

theorem lastIs_ok {r : Py (HexaData F64)} {n : Nat} {x : F64} (h : lastIs r n x = true) : ∃ M, r = .ok M ∧ M.nbc = n ∧ (M.bc 0 0 3).p7 = x := by
  cases r with
  | error => cases h
  | ok M => exact ⟨M, rfl, of_decide_eq_true h⟩

end Samples

/-- **C121** is false for the numbers as well: the text up to `2.500000E-01` is read as `2.5` when the exponent is cut off, and without an
error. -/
theorem C121_number (native : Endian) : ∃ (s : Text) (m : Nat) (M M' : HexaData F64), m < s.length ∧ readrea native s = .ok M ∧
    readrea native (s.take m) = .ok M' ∧ (M.bc 0 0 3).p7 = Flt.ofRat false (1 / 4) ∧ (M'.bc 0 0 3).p7 = Flt.ofRat false (5 / 2) ∧
    M'.nbc = M.nbc := by
  have h1 : Samples.lastIs (readrea native Samples.cropText) 1 Samples.quarter64 = true := by cases native <;> decide +kernel
  have h2 : Samples.lastIs (readrea native (Samples.cropText.take (Samples.cropText.length - 5))) 1 Samples.big64 = true := by
    cases native <;> decide +kernel
  obtain ⟨M, e, n, x⟩ := Samples.lastIs_ok h1
  obtain ⟨M', e', n', x'⟩ := Samples.lastIs_ok h2
  exact ⟨Samples.cropText, Samples.cropText.length - 5, M, M', by decide +kernel, e, e', x, x', by rw [n, n']⟩

/-- The file is also read when it ends after the curved edges, without any condition. -/
example : ∃ M', readrea .little (Samples.cropText.take (Samples.cropText.length - 366)) = .ok M' ∧ M'.nbc = 0 ∧ (M'.bc 0 0 3).p7 = 0 :=
  Samples.lastIs_ok (by decide +kernel)

/-- The hypotheses of `C121_partial` are met by these texts. -/
example : ∃ M M' : HexaData F64, readrea .little Samples.cropText = .ok M ∧
    readrea .little (Samples.cropText.take (Samples.cropText.length - 5)) = .ok M' ∧ Remains M M' := by
  obtain ⟨M, e, -, -⟩ := Samples.lastIs_ok (r := readrea .little Samples.cropText) (n := 1) (x := Samples.quarter64) (by decide +kernel)
  obtain ⟨M', e', -, -⟩ := Samples.lastIs_ok (r := readrea .little (Samples.cropText.take (Samples.cropText.length - 5))) (n := 1)
    (x := Samples.big64) (by decide +kernel)
  exact ⟨M, M', e, e', C121_partial _ _ _ M M' e e'⟩

/-- The file of the sample mesh is read without its field, and what is read then is described by both theorems. -/
example : ∃ m < (writerea Samples.reaMesh).1.length, ∃ M', readrea .little ((writerea Samples.reaMesh).1.take m) = .ok M' ∧
    ReaRestored { Samples.reaMesh with nbc := 0 } M' ∧
    ∃ j ≤ Samples.reaMesh.nbc, ∃ M'', ReaRestored { Samples.reaMesh with nbc := j } M'' ∧ SameButLast M'' M' := by
  obtain ⟨m, hm, M', e, h⟩ := C121_false .little Samples.reaMesh Samples.reaMesh_ok (by decide) 0 (by decide)
  exact ⟨m, hm, M', e, h, C121_written_partial .little Samples.reaMesh Samples.reaMesh_ok (by decide) (by decide) (by decide) m M' e⟩

end Pymech
