import Verif.Lemmas.ReaRound
import Verif.Props.Header

/-!
# `.rea` files: C22–C26
-/

namespace Pymech

open Spec

theorem reaImage_el (native : Endian) (M : HexaData F64) (i : Nat) (hi : i < M.nel) : (reaImage native M).el i = reaElem M i := by
  unfold HexaData.el reaImage
  simp [hi]

theorem reaImage_bc (native : Endian) (M : HexaData F64) (i b f : Nat) (hi : i < M.nel) (hb : b < M.nbc) (hf : f < 2 * M.ndim) :
    (reaImage native M).bc i b f = bcV M.nel i f ((M.bc i b f).mark i f) := by
  unfold HexaData.bc
  rw [reaImage_el native M i hi]
  show (if _ then _ else _) = _
  rw [if_pos ⟨hb, hf⟩]
  rfl

theorem reaImage_restored (native : Endian) (M : HexaData F64) (h : ReaMesh M) : ReaRestored M (reaImage native M) := by
  refine ⟨rfl, rfl, rfl, reaEdges_length M h.len, by simp [reaImage], ?_, ?_, ?_, ?_, ?_, ?_⟩
  · intro i hi
    rw [reaImage_el native M i hi]
    exact ⟨rfl, rfl, rfl, rfl⟩
  · intro i hi d hd z hz y hy x hx
    rw [reaImage_el native M i hi]
    show Printed 6 _ (if _ then _ else _)
    rw [if_pos ⟨hd, hz, hy, hx⟩]
    exact printed_spec 6 _
  · intro i hi e he
    rw [reaImage_el native M i hi]
    show (if _ then _ else _) = _
    by_cases hm : (i, e) ∈ reaEdges M
    · rw [if_pos hm]
    · rw [if_neg hm]
      rw [mem_reaEdges] at hm
      by_contra hne
      exact hm ⟨hi, he, fun h => hne h.symm⟩
  · intro i hi e he hne j hj
    rw [reaImage_el native M i hi]
    show Printed 6 _ (if _ then _ else _)
    rw [if_pos ⟨(mem_reaEdges M i e).mpr ⟨hi, he, hne⟩, hj⟩]
    exact printed_spec 6 _
  · rintro i hi b hb f hf ⟨hs, h3⟩
    rw [reaImage_bc native M i b f hi hb hf]
    unfold bcV BC.mark
    rcases hs with hs | hs
    · rw [if_pos hs, if_pos ⟨rfl, h3⟩]
    · have hne : (M.bc i b f).typ ≠ [] := by rw [hs]; decide
      rw [if_neg hne, if_pos ⟨hs, h3⟩]
  · intro i hi b hb f hf hs
    rw [reaImage_bc native M i b f hi hb hf]
    unfold bcV BC.mark
    unfold Silent at hs
    by_cases he : (M.bc i b f).typ = []
    · rw [if_pos he, if_neg (fun h => hs ⟨.inl he, h.2⟩)]
      simp only [he, or_true, if_true, ite_self]
      exact ⟨trivial, trivial, trivial, printed_spec _ _, printed_spec _ _, printed_spec _ _, printed_spec _ _, printed_spec _ _⟩
    · rw [if_neg he, if_neg (fun h => hs ⟨.inr h.1, h.2⟩)]
      simp only [he, or_false, if_false, true_and]
      exact ⟨printed_spec _ _, printed_spec _ _, printed_spec _ _, printed_spec _ _, printed_spec _ _⟩

theorem Spec.HasDigits.mono {p q : Nat} {x : F64} (h : HasDigits p x) (hpq : p ≤ q) : HasDigits q x := by
  obtain ⟨hf, m, k, hm, hv⟩ := h
  exact ⟨hf, m, k, lt_of_lt_of_le hm (Nat.pow_le_pow_right (by omega) (by omega)), hv⟩

theorem Spec.ReaRestored.same {M M' : HexaData F64} (h : ReaRestored M M') (hc : Clean M) : ReaSame M M' := by
  refine ⟨h.ndim, h.nel, h.nbc, h.len, ?_, h.ccurv, ?_, ?_⟩
  · intro i hi d hd z hz y hy x hx
    exact (h.pos i hi d hd z hz y hy x hx).exact (hc.pos i hi d hd z hz y hy x hx)
  · intro i hi e he hne j hj
    exact (h.curv i hi e he hne j hj).exact (hc.curv i hi e he hne j hj)
  · intro i hi b hb f hf
    by_cases he : (M.bc i b f).typ = []
    · have hz := hc.empty i hi b hb f hf he
      rw [h.silent i hi b hb f hf ⟨.inl he, by rw [hz]; rfl⟩, hz]
    · have hs : ¬ Silent (M.bc i b f) := by
        rintro ⟨h1 | h1, h3⟩
        · exact he h1
        · exact hc.internal i hi b hb f hf h1 h3
      have hq : 6 ≤ bcDigits M.nel := by unfold bcDigits; split <;> omega
      obtain ⟨b1, b2, b3, b4, b5, b6, b7, b8⟩ := h.bcs i hi b hb f hf hs
      obtain ⟨c3, c4, c5, c6, c7⟩ := hc.bcs i hi b hb f hf he
      have b4 := b4.exact (c3.mono hq)
      have b5 := b5.exact (c4.mono hq)
      have b6 := b6.exact (c5.mono hq)
      have b7 := b7.exact (c6.mono hq)
      have b8 := b8.exact (c7.mono hq)
      rw [if_neg he] at b1
      have b2 : (M'.bc i b f).own = (M.bc i b f).own := by
        rw [b2]
        split
        · rename_i hx
          exact (hc.own (by rcases hx with hx | hx; exacts [hx.1, absurd hx he]) i hi b hb f hf he).1.symm
        · rfl
      have b3 : (M'.bc i b f).ownFace = (M.bc i b f).ownFace := by
        rw [b3]
        split
        · rename_i hx
          exact (hc.own (by rcases hx with hx | hx; exacts [hx.1, absurd hx he]) i hi b hb f hf he).2.symm
        · rfl
      have hext : ∀ r r' : BC F64, r'.typ = r.typ → r'.own = r.own → r'.ownFace = r.ownFace → r'.p3 = r.p3 → r'.p4 = r.p4 → r'.p5 = r.p5 →
          r'.p6 = r.p6 → r'.p7 = r.p7 → r' = r := by
        rintro ⟨⟩ ⟨⟩ rfl rfl rfl rfl rfl rfl rfl rfl
        rfl
      exact hext _ _ b1 b2 b3 b4 b5 b6 b7 b8

/-! ### The round trip -/

/-- **C22**: a mesh is restored up to the digits printed. -/
theorem C22 (native : Endian) (M : HexaData F64) (h : ReaMesh M) (hb : 0 < M.nbc) (hn : M.ncurv = curvedCount M) :
    ∃ M', readrea native (writerea M).1 = .ok M' ∧ ReaRestored M M' :=
  ⟨_, rea_roundtrip native M h hb hn, reaImage_restored native M h⟩

/-- **C22** for values with at most seven digits: the mesh is the same. -/
theorem C22_exact (native : Endian) (M : HexaData F64) (h : ReaMesh M) (hb : 0 < M.nbc) (hn : M.ncurv = curvedCount M) (hc : Clean M) :
    ∃ M', readrea native (writerea M).1 = .ok M' ∧ ReaSame M M' :=
  ⟨_, rea_roundtrip native M h hb hn, (reaImage_restored native M h).same hc⟩

/-! ### The mesh given to the writer -/

theorem reaMark_bc (M : HexaData F64) (i b f : Nat) (hi : i < M.nel) (hl : M.elem.length = M.nel) (hb : b < M.nbc) (hf : f < 2 * M.ndim) :
    (reaMark M).bc i b f = (M.bc i b f).mark i f := by
  unfold HexaData.bc HexaData.el reaMark
  dsimp only
  rw [List.getD_eq_getElem?_getD, List.getD_eq_getElem?_getD, List.getElem?_mapIdx, List.getElem?_eq_getElem (by omega)]
  simp only [Option.map_some, Option.getD_some]
  rw [if_pos ⟨hb, hf, hi⟩]

/-- **C23**, the part that holds: `writerea` leaves a mesh as it is exactly when no boundary condition is empty.
Missing: empty conditions, see `C23_false`. `writere2` and `writenek` have no access to the mesh but for reading. -/
theorem C23_partial (M : HexaData F64) (h : ReaMesh M) :
    (writerea M).2 = .ok M ↔ ∀ i < M.nel, ∀ b < M.nbc, ∀ f < 2 * M.ndim, (M.bc i b f).typ ≠ [] := by
  rw [writerea_ok M h]
  dsimp only
  constructor
  · intro he i hi b hb f hf ht
    have h1 := reaMark_bc M i b f hi h.len hb hf
    rw [Except.ok.inj he] at h1
    unfold BC.mark at h1
    rw [if_pos ht] at h1
    have := congrArg BC.typ h1
    rw [ht] at this
    exact absurd (show [] = nE from this) (by decide)
  · intro hne
    congr 1
    have : (reaMark M).elem = M.elem := by
      unfold reaMark
      dsimp only
      apply List.ext_getElem?
      intro i
      rw [List.getElem?_mapIdx]
      by_cases hi : i < M.elem.length
      · rw [List.getElem?_eq_getElem hi, Option.map_some]
        congr 1
        have hfun : (fun b f => if b < M.nbc ∧ f < 2 * M.ndim ∧ i < M.nel then (M.elem[i].bcs b f).mark i f else M.elem[i].bcs b f) = M.elem[i].bcs := by
          funext b f
          split
          · rename_i hx
            have := hne i hx.2.2 b hx.1 f hx.2.1
            unfold HexaData.bc HexaData.el at this
            rw [List.getD_eq_getElem?_getD, List.getElem?_eq_getElem hi, Option.getD_some] at this
            unfold BC.mark
            rw [if_neg this]
          · rfl
        rw [hfun]
      · rw [List.getElem?_eq_none (by omega)]
        rfl
    have e : reaMark M = { M with elem := (reaMark M).elem } := rfl
    rw [e, this]

/-- **C23** is false in the code for every mesh with an empty boundary condition: the condition becomes an internal one
that points to its own element and face. -/
theorem C23_false (M : HexaData F64) (h : ReaMesh M) (i b f : Nat) (hi : i < M.nel) (hb : b < M.nbc) (hf : f < 2 * M.ndim)
    (he : (M.bc i b f).typ = []) :
    ∃ M', (writerea M).2 = .ok M' ∧ M' ≠ M ∧ M'.bc i b f = { M.bc i b f with typ := ['E'], own := (i : Int) + 1, ownFace := (f : Int) + 1 } := by
  have h1 := reaMark_bc M i b f hi h.len hb hf
  unfold BC.mark at h1
  rw [if_pos he] at h1
  refine ⟨reaMark M, by rw [writerea_ok M h], fun hm => ?_, h1⟩
  rw [hm] at h1
  have := congrArg BC.typ h1
  rw [he] at this
  exact absurd (show [] = nE from this) (by decide)

/-! ### Long names -/

theorem stripT_length_le (s : Text) : (stripT s).length ≤ s.length := by
  unfold stripT rstripT
  rw [List.length_reverse]
  refine ((List.dropWhile_sublist _).length_le).trans ?_
  rw [List.length_reverse]
  exact (List.dropWhile_sublist _).length_le

theorem npU3_length_le (s : Text) : (npU3 s).length ≤ s.length := by
  unfold npU3
  rw [List.length_reverse]
  refine ((List.dropWhile_sublist _).length_le).trans ?_
  rw [List.length_reverse, List.length_take]
  omega

theorem readBC_short (nel i f : Nat) (l : Text) (r : BC F64) (h : readBC nel i f l = .ok r) : r.typ.length ≤ 2 := by
  have hl : (npU3 (stripT (cols l 1 3))).length ≤ 2 := by
    refine (npU3_length_le _).trans ((stripT_length_le _).trans ?_)
    unfold cols
    rw [List.length_take]
    omega
  unfold readBC at h
  simp only [bind, Except.bind] at h
  split at h
  · exact absurd h (by simp)
  repeat' split at h
  all_goals simp only [pure, Except.pure, reduceCtorEq, Except.ok.injEq] at h
  all_goals
    subst h
    first | exact hl | exact Nat.zero_le _

theorem mapM_mem {α β : Type} (f : α → Py β) (l : List α) (r : List β) (h : l.mapM f = .ok r) : ∀ y ∈ r, ∃ x ∈ l, f x = .ok y := by
  induction l generalizing r with
  | nil =>
    simp only [List.mapM_nil, pure, Except.pure, Except.ok.injEq] at h
    subst h
    simp
  | cons a l ih =>
    rw [List.mapM_cons] at h
    simp only [bind, Except.bind] at h
    split at h
    · exact absurd h (by simp)
    · rename_i v hv
      split at h
      · exact absurd h (by simp)
      · rename_i w hw
        simp only [pure, Except.pure, Except.ok.injEq] at h
        subst h
        intro y hy
        rcases List.mem_cons.mp hy with rfl | hy
        · exact ⟨a, List.mem_cons_self, hv⟩
        · obtain ⟨x, hx, hf⟩ := ih w hw y hy
          exact ⟨x, List.mem_cons_of_mem _ hx, hf⟩

/-- What `readFaces` keeps. -/
theorem readFaces_el (nd nel nbc : Nat) (M M' : HexaData F64) (ls : List Text) (h : readFaces nd nel nbc M ls = .ok M') :
    M'.ncurv = M.ncurv ∧ M'.elem.length = M.elem.length ∧ (∀ i, (M'.el i).ccurv = (M.el i).ccurv) ∧ ∀ i b f, (M'.bc i b f).typ.length ≤ 2 := by
  unfold readFaces at h
  simp only [bind, Except.bind] at h
  split at h
  · exact absurd h (by simp)
  · rename_i rs hrs
    simp only [pure, Except.pure, Except.ok.injEq] at h
    subst h
    have hmem := mapM_mem _ _ _ hrs
    refine ⟨rfl, by simp, fun i => ?_, fun i b f => ?_⟩
    · unfold HexaData.el
      dsimp only
      rw [List.getD_eq_getElem?_getD, List.getD_eq_getElem?_getD, List.getElem?_mapIdx]
      cases M.elem[i]? <;> rfl
    · unfold HexaData.bc HexaData.el
      dsimp only
      rw [List.getD_eq_getElem?_getD, List.getElem?_mapIdx]
      cases M.elem[i]? with
      | none => exact Nat.zero_le _
      | some el =>
        simp only [Option.map_some, Option.getD_some]
        split
        · rw [List.getD_eq_getElem?_getD]
          cases hr : rs[(b * nel + i) * (2 * nd) + f]? with
          | none => exact Nat.zero_le _
          | some r =>
            obtain ⟨t, -, ht⟩ := hmem r (List.mem_of_getElem? hr)
            exact readBC_short _ _ _ _ _ ht
        · exact Nat.zero_le _

/-- **C24** is false in the code: `readrea` never returns a name with more than two characters, whatever the file. -/
theorem C24_false (native : Endian) (s : Text) (M' : HexaData F64) (h : readrea native s = .ok M') (i b f : Nat) :
    (M'.bc i b f).typ.length ≤ 2 := by
  unfold readrea at h
  simp only [bind, Except.bind] at h
  repeat' split at h
  all_goals try simp only [reduceCtorEq] at h
  unfold readMesh at h
  simp only [bind, Except.bind] at h
  split at h
  · exact absurd h (by simp)
  unfold readSides at h
  simp only [bind, Except.bind] at h
  repeat' split at h
  all_goals try simp only [reduceCtorEq] at h
  exact (readFaces_el _ _ _ _ _ _ h).2.2.2 i b f

/-- As a consequence no file can restore a mesh with a name of three characters. -/
theorem C24_not_restored (native : Endian) (M : HexaData F64) (i b f : Nat) (hi : i < M.nel) (hb : b < M.nbc) (hf : f < 2 * M.ndim)
    (ht : (M.bc i b f).typ.length = 3) (s : Text) (M' : HexaData F64) (h : readrea native s = .ok M') : ¬ ReaSame M M' := fun hs => by
  have := C24_false native s M' h i b f
  rw [hs.bcs i hi b hb f hf, ht] at this
  omega

/-! ### The number of curved sides -/

/-- Each line sets the type of one edge. -/
theorem putReaCurve_ccurv (nel : Nat) (M M' : HexaData F64) (l : Text) (h : putReaCurve nel M l = .ok M') :
    ∃ p : Nat × Nat, ∀ i k, (i, k) ≠ p → (M'.el i).ccurv k = (M.el i).ccurv k := by
  unfold putReaCurve at h
  simp only [bind, Except.bind] at h
  repeat' split at h
  all_goals try simp only [reduceCtorEq] at h
  simp only [pure, Except.pure, Except.ok.injEq] at h
  subst h
  rename_i i0 _ _ k0 _ _ _ _ _ _ _ _ _ _ _ _ _ _ t _
  refine ⟨(i0, k0), fun i k hne => ?_⟩
  unfold HexaData.el
  dsimp only
  rw [List.getD_eq_getElem?_getD, List.getD_eq_getElem?_getD, List.getElem?_modify]
  by_cases hi : i0 = i
  · subst hi
    cases M.elem[i0]? with
    | none => rfl
    | some el =>
      simp only [if_true, Option.map_eq_map, Option.map_some, Option.getD_some, Elem.setCurve]
      rw [if_neg (fun h => hne (by rw [h]))]
  · cases M.elem[i]? <;> simp [hi]

theorem putReaCurve_ncurv (nel : Nat) (M M' : HexaData F64) (l : Text) (h : putReaCurve nel M l = .ok M') : M'.ncurv = M.ncurv := by
  unfold putReaCurve at h
  simp only [bind, Except.bind] at h
  repeat' split at h
  all_goals simp only [pure, Except.pure, reduceCtorEq, Except.ok.injEq] at h
  subst h
  rfl

theorem foldReaCurve_ncurv (nel : Nat) (ls : List Text) (l : List Nat) (M M' : HexaData F64)
    (h : l.foldlM (fun M k => putReaCurve nel M (ls.getD (2 + k) [])) M = .ok M') : M'.ncurv = M.ncurv := by
  induction l generalizing M with
  | nil =>
    simp only [List.foldlM_nil, pure, Except.pure, Except.ok.injEq] at h
    rw [h]
  | cons a l ih =>
    rw [List.foldlM_cons] at h
    simp only [bind, Except.bind] at h
    split at h
    · exact absurd h (by simp)
    · rename_i M1 h1
      rw [ih M1 h, putReaCurve_ncurv _ _ _ _ h1]

theorem foldReaCurve_ccurv (nel : Nat) (ls : List Text) (l : List Nat) (M M' : HexaData F64)
    (h : l.foldlM (fun M k => putReaCurve nel M (ls.getD (2 + k) [])) M = .ok M') :
    ∃ S : List (Nat × Nat), S.length = l.length ∧ ∀ i k, (i, k) ∉ S → (M'.el i).ccurv k = (M.el i).ccurv k := by
  induction l generalizing M with
  | nil =>
    simp only [List.foldlM_nil, pure, Except.pure, Except.ok.injEq] at h
    exact ⟨[], rfl, fun i k _ => by rw [h]⟩
  | cons a l ih =>
    rw [List.foldlM_cons] at h
    simp only [bind, Except.bind] at h
    split at h
    · exact absurd h (by simp)
    · rename_i M1 h1
      obtain ⟨p, hp⟩ := putReaCurve_ccurv _ _ _ _ h1
      obtain ⟨S, hS, hk⟩ := ih M1 h
      refine ⟨p :: S, by simp [hS], fun i k hn => ?_⟩
      rw [List.mem_cons, not_or] at hn
      rw [hk i k hn.2, hp i k hn.1]

/-- **C25** is false in the code when the attribute is too small: if `readrea` returns at all, the mesh has no more curved
edges than the attribute says. -/
theorem C25_few (native : Endian) (M : HexaData F64) (h : ReaMesh M) (M' : HexaData F64)
    (hr : readrea native (writerea M).1 = .ok M') :
    M'.ncurv = M.ncurv ∧ ∃ S : List (Nat × Nat), S.length = M.ncurv ∧ ∀ i < M.nel, ∀ e < 12, (M'.el i).ccurv e ≠ [] → (i, e) ∈ S := by
  rw [readrea_sides native M h, readSides_top] at hr
  simp only [bind, Except.bind] at hr
  split at hr
  · exact absurd hr (by simp)
  · rename_i M1 h1
    obtain ⟨r1, r2, r3, -⟩ := readFaces_el _ _ _ _ _ _ hr
    obtain ⟨S, hS, hk⟩ := foldReaCurve_ccurv _ _ _ _ _ h1
    have hnc := foldReaCurve_ncurv _ _ _ _ _ h1
    change M1.ncurv = M.ncurv at hnc
    refine ⟨by rw [r1, hnc], S, by rw [hS, List.length_range], fun i hi e _ hne => ?_⟩
    by_contra hmem
    rw [r3 i, hk i e hmem, reaStart_el native M _ _ i hi] at hne
    exact hne rfl

/-- As a consequence the mesh is not restored. -/
theorem C25_not_restored (native : Endian) (M : HexaData F64) (h : ReaMesh M) (hn : M.ncurv < curvedCount M) (M' : HexaData F64)
    (hr : readrea native (writerea M).1 = .ok M') : ¬ ReaSame M M' := by
  obtain ⟨-, S, hS, hsub⟩ := C25_few native M h M' hr
  intro hs
  have hnd : (reaEdges M).Nodup := (nodup_prod2 List.nodup_range List.nodup_range).filter _
  have hle : (reaEdges M).length ≤ S.length := by
    refine (hnd.subperm fun t ht => ?_).length_le
    obtain ⟨a1, a2, a3⟩ := (mem_reaEdges M t.1 t.2).mp ht
    exact hsub t.1 a1 t.2 a2 (by rw [hs.ccurv t.1 a1 t.2 a2]; exact a3)
  rw [reaEdges_length M h.len] at hle
  omega

theorem colInt_bcTop : colInt (lineT bcTop) 0 3 = .error .valueError ∧ colInt (lineT bcTop) 0 2 = .error .valueError := by
  decide +kernel

theorem putReaCurve_bcTop (nel : Nat) (M : HexaData F64) : putReaCurve nel M (lineT bcTop) = .error .valueError := by
  unfold putReaCurve curveCols
  obtain ⟨h1, h2⟩ := colInt_bcTop
  split
  · simp only [h1, bind, Except.bind]
  · split
    · simp only [h2, bind, Except.bind]
    · simp only [h2, bind, Except.bind]

/-- **C25** is false in the code when the attribute is too large: the file cannot be read. -/
theorem C25_many (native : Endian) (M : HexaData F64) (h : ReaMesh M) (hn : curvedCount M < M.ncurv) :
    readrea native (writerea M).1 = .error .valueError := by
  rw [readrea_sides native M h, readSides_top]
  generalize (fieldsT M).map lineT ++ (restT M.nbc).map lineT = R
  obtain ⟨M1, hf1, -⟩ := edge_lines native M h (max 1 M.nbc) M.ncurv
  have hE : (((reaEdges M).map (edgeT M)).map lineT ++ [lineT bcTop]).length = curvedCount M + 1 := by
    rw [List.length_append, List.length_map, List.length_map, reaEdges_length M h.len]
    rfl
  have hfold : (List.range M.ncurv).foldlM (fun M' k => putReaCurve M.nel M'
      (((curveTop M.ncurv).map lineT ++ (((reaEdges M).map (edgeT M)).map lineT ++ (lineT bcTop :: R))).getD (2 + k) []))
        (reaStart native M (max 1 M.nbc) M.ncurv) = .error .valueError := by
    have hr : List.range M.ncurv = List.range (curvedCount M + 1) ++ (List.range (M.ncurv - (curvedCount M + 1))).map (curvedCount M + 1 + ·) := by
      rw [← List.range_add]
      congr 1
      omega
    rw [hr, List.foldlM_append, ← hE, foldlM_lines (putReaCurve M.nel) (((reaEdges M).map (edgeT M)).map lineT ++ [lineT bcTop]) _ 2, List.foldlM_append, hf1]
    · simp only [bind, Except.bind, List.foldlM_cons, putReaCurve_bcTop]
    · intro k hk
      have e : ((curveTop M.ncurv).map lineT ++ (((reaEdges M).map (edgeT M)).map lineT ++ (lineT bcTop :: R))) =
          (curveTop M.ncurv).map lineT ++ ((((reaEdges M).map (edgeT M)).map lineT ++ [lineT bcTop]) ++ R) := by simp
      rw [e, List.getElem?_append_right (by simp [curveTop])]
      have e2 : 2 + k - ((curveTop M.ncurv).map lineT).length = k := by simp [curveTop]
      rw [e2, List.getElem?_append_left hk]
  simp only [bind, Except.bind]
  rw [hfold]

/-- **C25**, the part that holds: the attribute is the number of curved edges. Missing: all other values, for which the
mesh is not restored, see `C25_not_restored` and `C25_many`. -/
theorem C25_partial (native : Endian) (M : HexaData F64) (h : ReaMesh M) (hb : 0 < M.nbc) (hc : Clean M) :
    (∃ M', readrea native (writerea M).1 = .ok M' ∧ ReaSame M M') ↔ M.ncurv = curvedCount M := by
  constructor
  · rintro ⟨M', hr, hs⟩
    rcases Nat.lt_trichotomy M.ncurv (curvedCount M) with hl | hl | hl
    · exact absurd hs (C25_not_restored native M h hl M' hr)
    · exact hl
    · rw [C25_many native M h hl] at hr
      exact absurd hr (by simp)
  · intro hn
    exact C22_exact native M h hb hn hc

/-! ### No fields -/

/-- The line in the place of the first boundary condition. -/
def noThermal : Text := "  ***** NO THERMAL BOUNDARY CONDITIONS *****".toList

theorem noThermal_cols : colInt (lineT noThermal) 4 7 = .error .valueError ∧ colInt (lineT noThermal) 4 15 = .error .valueError ∧
    colFloat (lineT noThermal) 10 24 = .error .valueError := by
  decide +kernel

theorem readBC_noThermal (nel : Nat) : readBC nel 0 0 (lineT noThermal) = .error .valueError := by
  obtain ⟨h1, h2, h3⟩ := noThermal_cols
  unfold readBC
  rw [if_neg (by omega)]
  by_cases a : nel < 10 ^ 3
  · simp only [a, if_true, h1, bind, Except.bind]
  · by_cases b : nel < 10 ^ 6
    · simp only [a, b, if_true, if_false, h3, bind, Except.bind, pure, Except.pure]
    · simp only [a, b, if_false, h2, bind, Except.bind]

/-- **C26** is false in the code for every mesh: the file of a mesh without fields of boundary conditions cannot be read. -/
theorem C26_false (native : Endian) (M : HexaData F64) (h : ReaMesh M) (hb : M.nbc = 0) (hn : M.ncurv = curvedCount M) (hpos : 0 < M.nel) :
    readrea native (writerea M).1 = .error .valueError := by
  rw [readrea_sides native M h, readSides_top]
  obtain ⟨M1, hf1, -⟩ := edge_lines native M h (max 1 M.nbc) M.ncurv
  rw [← reaEdges_length M h.len] at hn
  generalize hR : (fieldsT M).map lineT ++ (restT M.nbc).map lineT = R
  have hfold : (List.range M.ncurv).foldlM (fun M' k => putReaCurve M.nel M'
      (((curveTop M.ncurv).map lineT ++ (((reaEdges M).map (edgeT M)).map lineT ++ (lineT bcTop :: R))).getD (2 + k) []))
        (reaStart native M (max 1 M.nbc) M.ncurv) = .ok M1 := by
    have hEl : M.ncurv = (((reaEdges M).map (edgeT M)).map lineT).length := by rw [List.length_map, List.length_map, hn]
    generalize hG : (curveTop M.ncurv).map lineT ++ (((reaEdges M).map (edgeT M)).map lineT ++ (lineT bcTop :: R)) = G
    rw [hEl, foldlM_lines (putReaCurve M.nel) (((reaEdges M).map (edgeT M)).map lineT) G 2 ?_ _, ← hEl]
    · exact hf1
    · intro k hk
      rw [← hG, List.getElem?_append_right (by simp [curveTop])]
      have e2 : 2 + k - ((curveTop M.ncurv).map lineT).length = k := by simp [curveTop]
      rw [e2, List.getElem?_append_left hk]
  simp only [bind, Except.bind]
  rw [hfold]
  simp only
  have hdr : ((curveTop M.ncurv).map lineT ++ (((reaEdges M).map (edgeT M)).map lineT ++ (lineT bcTop :: R))).drop (2 + M.ncurv + 1) = R := by
    have : (curveTop M.ncurv).map lineT ++ (((reaEdges M).map (edgeT M)).map lineT ++ (lineT bcTop :: R)) =
        ((curveTop M.ncurv).map lineT ++ ((reaEdges M).map (edgeT M)).map lineT ++ [lineT bcTop]) ++ R := by simp
    rw [this, List.drop_left' (by simp [curveTop]; omega)]
  rw [hdr]
  have hR' : R = lineT (bcTitle 0) :: lineT noThermal :: reaTail.map lineT := by
    rw [← hR]
    unfold fieldsT restT
    rw [if_pos hb, hb]
    rfl
  rw [hR', hb]
  obtain ⟨n, hn'⟩ : ∃ n, M.nel = n + 1 := ⟨M.nel - 1, by omega⟩
  obtain ⟨d, hd'⟩ : ∃ d, 2 * M.ndim = d + 1 := ⟨2 * M.ndim - 1, by have := h.dim; omega⟩
  have hp : ∃ T, prod3 (List.range 1) (List.range M.nel) (List.range (2 * M.ndim)) = (0, 0, 0) :: T := by
    rw [hn', hd']
    simp only [List.range_succ_eq_map]
    exact ⟨_, rfl⟩
  obtain ⟨T, hT⟩ := hp
  unfold readFaces
  simp only
  rw [show max 1 0 = 1 from rfl, hT, List.mapM_cons]
  have e : (lineT (bcTitle 0) :: lineT noThermal :: reaTail.map lineT).getD
      ((1 + M.nel * (2 * M.ndim)) * ((0, 0, 0) : Nat × Nat × Nat).1 + 1 + 2 * M.ndim * ((0, 0, 0) : Nat × Nat × Nat).2.1 + ((0, 0, 0) : Nat × Nat × Nat).2.2) [] =
      lineT noThermal := by simp
  simp only [e, readBC_noThermal, bind, Except.bind]

/-- Without elements it can be read, but there is one field then. -/
theorem C26_empty (native : Endian) (M : HexaData F64) (h : ReaMesh M) (hn : M.ncurv = curvedCount M) (hz : M.nel = 0) (M' : HexaData F64)
    (hr : readrea native (writerea M).1 = .ok M') : M'.nbc = max 1 M.nbc := by
  rw [readrea_sides native M h, readSides_top] at hr
  have h0 : (reaEdges M).length = 0 := by
    unfold reaEdges
    rw [hz]
    rfl
  rw [hn, ← reaEdges_length M h.len, h0] at hr
  simp only [List.range_zero, List.foldlM_nil, bind, Except.bind, pure, Except.pure, readFaces] at hr
  split at hr
  · exact absurd hr (by simp)
  · simp only [Except.ok.injEq] at hr
    rw [← hr]
    rfl

/-! ### Examples -/

namespace Samples

/-- The number -1/2. -/
def negHalf : F64 := Flt.ofRat true (1 / 2)

/-- Two hexahedra with an arc, two fields, external, periodic, internal and empty boundary conditions. -/
def reaMesh : HexaData F64 :=
  let el (i : Nat) : Elem F64 :=
    { (Elem.new 0 0 0 2 2 2 2 : Elem F64) with
      pos := ⟨3, 2, 2, 2, fun d z y x => if d = 1 ∧ y = 0 then negHalf else natF64 (d + 2 * z + 3 * y + 5 * x + 7 * i)⟩
      curv := fun a j => if i = 1 ∧ a = 4 then natF64 (j + 2) else 0
      ccurv := fun a => if i = 1 ∧ a = 4 then ['C'] else []
      bcs := fun b f => if b = 0 ∧ f = 0 then ⟨['v'], 5, 6, negHalf, 0, 0, 0, natF64 9⟩
        else if b = 1 ∧ f = 5 then ⟨['P'], 1, 1, natF64 2, natF64 6, 0, 0, 0⟩
        else if f = 2 then ⟨nE, 1, 1, natF64 2, natF64 3, 0, 0, 0⟩ else BC.zero }
  { (HexaData.new .little 3 2 ⟨2, 2, 2, true⟩ ⟨3, 0, 0, 0, 0⟩ 2 : HexaData F64) with ncurv := 1, elem := [el 0, el 1] }

theorem hasDigits_nat (n : Nat) (h : n < 10 ^ 7) : HasDigits 6 (natF64 n) := by
  obtain ⟨hf, hv⟩ := natF64_val n (by omega)
  refine ⟨hf, n, 0, h, ?_⟩
  have hs : (natF64 n).neg = false := rfl
  unfold Flt.val at hv
  rw [hs] at hv
  simpa using hv

theorem hasDigits_negHalf : HasDigits 6 negHalf := by
  have h : negHalf = ⟨true, 1022 * 2 ^ 52, by decide⟩ := by decide +kernel
  rw [h]
  refine ⟨by decide, 5, -1, by norm_num, ?_⟩
  show Flt.magVal 11 52 (1022 * 2 ^ 52) = _
  unfold Flt.magVal
  norm_num [Flt.minExp]

theorem hasDigits_zero : HasDigits 6 (0 : F64) := by
  have : (0 : F64) = natF64 0 := by decide +kernel
  rw [this]
  exact hasDigits_nat 0 (by norm_num)

theorem narrow_nat (n : Nat) : Narrow (natF64 n) := .inl rfl

theorem narrow_negHalf : Narrow negHalf := by
  have h : negHalf = ⟨true, 1022 * 2 ^ 52, by decide⟩ := by decide +kernel
  rw [h]
  refine .inr (.inr (.inr ?_))
  show _ ≤ Flt.magVal 11 52 (1022 * 2 ^ 52) ∧ Flt.magVal 11 52 (1022 * 2 ^ 52) < _
  unfold Flt.magVal
  norm_num [Flt.minExp]

theorem reaMesh_ok : ReaMesh reaMesh := by
  refine ⟨.inr rfl, rfl, by decide, ?_, ?_, ?_, ?_, ?_, ?_, fun h => absurd h (by decide)⟩
  · intro i (hi : i < 2)
    interval_cases i <;> exact ⟨le_refl 3, by decide, by decide, by decide⟩
  · intro i (hi : i < 2) d hd z hz y hy x hx
    have : ∀ p q n, Narrow (if p = 1 ∧ q = 0 then negHalf else natF64 n) := fun p q n => by
      split
      · exact narrow_negHalf
      · exact narrow_nat n
    interval_cases i <;> exact this _ _ _
  · intro i (hi : i < 2)
    interval_cases i <;> exact le_refl 2
  · intro i (hi : i < 2) e (he : e < 12)
    interval_cases i <;> interval_cases e <;> decide
  · intro i (hi : i < 2) b (hb : b < 2) f (hf : f < 6)
    interval_cases i <;> interval_cases b <;> interval_cases f <;> decide
  · intro i (hi : i < 2) b (hb : b < 2) f (hf : f < 6) _
    refine ⟨fun _ => ?_, fun h => absurd h (by decide), fun h => absurd h (by decide)⟩
    interval_cases i <;> interval_cases b <;> interval_cases f <;> decide

theorem reaMesh_clean : Clean reaMesh := by
  refine ⟨?_, ?_, ?_, ?_, ?_, fun h => absurd h (by decide)⟩
  · intro i (hi : i < 2) d (hd : d < 3) z (hz : z < 2) y hy x hx
    have : ∀ p q n, n < 10 ^ 7 → HasDigits 6 (if p = 1 ∧ q = 0 then negHalf else natF64 n) := fun p q n hn => by
      split
      · exact hasDigits_negHalf
      · exact hasDigits_nat n hn
    have e : ∀ k < 2, endOf k 2 < 2 := by decide
    have h1 := e z hz
    have h2 := e y hy
    have h3 := e x hx
    have hb : ∀ d z y x i : Nat, d < 3 → z < 2 → y < 2 → x < 2 → i < 2 → d + 2 * z + 3 * y + 5 * x + 7 * i < 10 ^ 7 := by
      intros
      omega
    interval_cases i
    · exact this _ _ _ (hb _ _ _ _ 0 hd h1 h2 h3 (by omega))
    · exact this _ _ _ (hb _ _ _ _ 1 hd h1 h2 h3 (by omega))
  · intro i (hi : i < 2) e he hne j hj
    interval_cases i
    · exact absurd rfl hne
    · show HasDigits 6 (if 1 = 1 ∧ e = 4 then natF64 (j + 2) else 0)
      split
      · exact hasDigits_nat _ (by omega)
      · exact hasDigits_zero
  · have key : ∀ x ∈ [0, negHalf, natF64 2, natF64 3, natF64 6, natF64 9], HasDigits 6 x := by
      intro x hx
      simp only [List.mem_cons, List.not_mem_nil, or_false] at hx
      rcases hx with rfl | rfl | rfl | rfl | rfl | rfl
      exacts [hasDigits_zero, hasDigits_negHalf, hasDigits_nat 2 (by omega), hasDigits_nat 3 (by omega), hasDigits_nat 6 (by omega),
        hasDigits_nat 9 (by omega)]
    have hall : ∀ i < 2, ∀ b < 2, ∀ f < 6, ∀ x ∈ [(reaMesh.bc i b f).p3, (reaMesh.bc i b f).p4, (reaMesh.bc i b f).p5, (reaMesh.bc i b f).p6,
        (reaMesh.bc i b f).p7], x ∈ [0, negHalf, natF64 2, natF64 3, natF64 6, natF64 9] := by decide +kernel
    intro i (hi : i < 2) b (hb : b < 2) f (hf : f < 6) _
    have hx := hall i hi b hb f hf
    refine ⟨key _ (hx _ ?_), key _ (hx _ ?_), key _ (hx _ ?_), key _ (hx _ ?_), key _ (hx _ ?_)⟩ <;> simp
  · intro i (hi : i < 2) b (hb : b < 2) f (hf : f < 6)
    interval_cases i <;> interval_cases b <;> interval_cases f <;> first | (intro _; rfl) | (intro h; exact absurd h (by decide))
  · intro i (hi : i < 2) b (hb : b < 2) f (hf : f < 6)
    interval_cases i <;> interval_cases b <;> interval_cases f <;> decide +kernel

end Samples

example : ∃ M', readrea .little (writerea Samples.reaMesh).1 = .ok M' ∧ ReaSame Samples.reaMesh M' :=
  C22_exact .little Samples.reaMesh Samples.reaMesh_ok (by decide) (by decide) Samples.reaMesh_clean

example : (Samples.reaMesh.bc 0 0 1).typ = [] ∧ (writerea Samples.reaMesh).2 ≠ .ok Samples.reaMesh := by
  have he : (Samples.reaMesh.bc 0 0 1).typ = [] := rfl
  refine ⟨he, fun h => ?_⟩
  exact absurd he ((C23_partial _ Samples.reaMesh_ok).mp h 0 (by decide) 0 (by decide) 1 (by decide))

/-- A mesh with the condition `SYM` everywhere. -/
def Samples.symMesh : HexaData F64 :=
  { reaMesh with elem := reaMesh.elem.map fun el => { el with bcs := fun _ _ => ⟨"SYM".toList, 0, 0, 0, 0, 0, 0, 0⟩ } }

example (s : Text) (M' : HexaData F64) (h : readrea .little s = .ok M') : ¬ ReaSame Samples.symMesh M' :=
  C24_not_restored .little Samples.symMesh 1 0 3 (by decide) (by decide) (by decide) (by decide) s M' h

/-- With the attribute left at zero the arc is lost, or nothing is read at all. -/
example (M' : HexaData F64) (h : readrea .little (writerea { Samples.reaMesh with ncurv := 0 }).1 = .ok M') : (M'.el 1).ccurv 4 = [] := by
  have hm := Samples.reaMesh_ok
  obtain ⟨-, S, hS, hk⟩ := C25_few .little { Samples.reaMesh with ncurv := 0 }
    ⟨hm.dim, hm.len, hm.size, hm.shape, hm.coords, hm.rows, hm.curv, hm.names, hm.columns, hm.plain⟩ M' h
  by_contra hne
  have := hk 1 (by decide) 4 (by decide) hne
  rw [List.length_eq_zero_iff.mp hS] at this
  exact absurd this (by simp)

example : readrea .little (writerea { Samples.reaMesh with ncurv := 2 }).1 = .error .valueError := by
  have hm := Samples.reaMesh_ok
  exact C25_many .little { Samples.reaMesh with ncurv := 2 }
    ⟨hm.dim, hm.len, hm.size, hm.shape, hm.coords, hm.rows, hm.curv, hm.names, hm.columns, hm.plain⟩ (by decide)

example : readrea .little (writerea { Samples.reaMesh with nbc := 0 }).1 = .error .valueError := by
  have hm := Samples.reaMesh_ok
  exact C26_false .little { Samples.reaMesh with nbc := 0 }
    ⟨hm.dim, hm.len, hm.size, hm.shape, hm.coords, fun _ _ => Nat.zero_le _, hm.curv, fun _ _ b hb => absurd hb (Nat.not_lt_zero b),
      fun _ _ b hb => absurd hb (Nat.not_lt_zero b), fun _ _ _ b hb => absurd hb (Nat.not_lt_zero b)⟩ rfl (by decide) (by decide)

end Pymech
