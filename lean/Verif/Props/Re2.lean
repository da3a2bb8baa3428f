import Verif.Lemmas.Re2Foreign

/-!
# `.re2` files: C14 and C16–C21
-/

namespace Pymech

open Spec

theorem image_el (e : Endian) (M : HexaData F64) (i : Nat) (hi : i < M.nel) : (re2Image e M).el i = re2Elem M i := by
  rw [← stage_last, stage_el e M M.nbc i hi]
  unfold stageElem re2Elem
  simp only [Elem.mk.injEq, true_and]
  funext b f
  by_cases h : b < M.nbc <;> simp [h]

theorem image_restored (e : Endian) (M : HexaData F64) : Restored M (re2Image e M) := by
  refine ⟨rfl, rfl, by simp [re2Image], fun i hi => ?_⟩
  have hb : ∀ b f, (re2Image e M).bc i b f = (re2Elem M i).bcs b f := by
    intro b f
    unfold HexaData.bc
    rw [image_el e M i hi]
  rw [image_el e M i hi]
  refine ⟨fun d hd z hz y hy x hx => ?_, fun k hk => ⟨?_, fun hn j hj => ?_⟩, fun b hb' f hf => ?_⟩
  · show (if _ then _ else _) = _
    rw [if_pos ⟨hd, hz, hy, hx⟩]
  · show (if _ then _ else _) = _
    rw [if_pos hk]
  · show (if _ then _ else _) = _
    rw [if_pos ⟨hk, hn, hj⟩]
  · rw [hb]
    unfold re2Elem
    dsimp only
    by_cases hs : Stored (M.bc i b f).typ
    · rw [if_pos ⟨hb', hf, hs⟩]
      exact ⟨fun _ => ⟨rfl, rfl, rfl, rfl, rfl, rfl⟩, fun h => absurd hs h⟩
    · rw [if_neg fun h => hs h.2.2]
      exact ⟨fun h => absurd h hs, fun _ => rfl⟩

/-! ### The round trip -/

/-- **C16**: in the byte order of the machine a mesh is restored. The number of fields is not restricted. -/
theorem C16 (native : Endian) (M : HexaData F64) (h : Re2Mesh M) (hs : M.nel < 10 ^ 8)
    (he : M.endian = none ∨ M.endian = some native) :
    ∃ b M', writere2 native M = (some b, none) ∧ readre2 native b = .ok M' ∧ Restored M M' := by
  have hf : native = fileEndian native M.endian := by rcases he with he | he <;> rw [he] <;> rfl
  obtain ⟨b, h1, h2⟩ := re2_roundtrip native native M h hs (.inl hf)
  exact ⟨b, _, h1, h2, image_restored _ M⟩

/-- **C17**, the part that holds: the reader may have another byte order than the file if no curved edges and no boundary
conditions are stored. Missing: all other meshes, see `C17_lost`. -/
theorem C17_partial (nw nr : Endian) (M : HexaData F64) (h : Re2Mesh M) (hs : M.nel < 10 ^ 8)
    (hp : nr = fileEndian nw M.endian ∨ Plain M) :
    ∃ b M', writere2 nw M = (some b, none) ∧ readre2 nr b = .ok M' ∧ Restored M M' := by
  obtain ⟨b, h1, h2⟩ := re2_roundtrip nw nr M h hs hp
  exact ⟨b, _, h1, h2, image_restored _ M⟩

/-- What follows a number that is read as zero does not reach the first field. -/
theorem readFields_start (native e : Endian) (hne : native ≠ e) (fuel : Nat) (rest : Bytes) (M M' : HexaData F64) (hr : OneRow M)
    (hrest : rest = [] ∨ ∃ n t, n < 2 ^ 36 ∧ rest = encW e 8 (natF64 n).bits ++ t)
    (h : readFields native e fuel 0 rest M = .ok M') (i : Nat) : (M'.el i).bcs 0 = (M.el i).bcs 0 := by
  cases fuel with
  | zero => simp [readFields] at h
  | succ fuel =>
    unfold readFields at h
    rcases hrest with rfl | ⟨n, t, hn, rfl⟩
    · rw [if_pos (by simp)] at h
      simp only [Except.ok.injEq] at h
      rw [h]
    · have h8 : (encW e 8 (natF64 n).bits ++ t).take 8 = encW e 8 (natF64 n).bits := List.take_left' (encW_length _ _ _)
      rw [h8, if_neg (by
        intro h0
        have := congrArg List.length h0
        rw [encW_length] at this
        exact absurd this (by simp)), countAt_foreign native e hne n hn] at h
      have hwords : words 64 (0 : Int).toNat (readMany (64 * 0) (List.drop 8 (encW e 8 (natF64 n).bits ++ t))).1 = [] := rfl
      simp only [bind, Except.bind, gt_iff_lt, Nat.lt_irrefl, if_false, hwords, List.foldlM_nil, pure, Except.pure] at h
      exact readFields_first native e fuel 1 (by omega) _ M M' hr h i

/-- **C17** is false in the code for every mesh with curved edges or boundary conditions in its first field: when the
byte order of the file is not that of the machine, the numbers of curved edges and boundary conditions are read as zero.
If `readre2` returns at all, the mesh has no curved edges and no boundary conditions in the first field. -/
theorem C17_lost (nw nr : Endian) (M : HexaData F64) (h : Re2Mesh M) (hs : M.nel < 10 ^ 8) (hne : nr ≠ fileEndian nw M.endian)
    (b : Bytes) (hw : writere2 nw M = (some b, none)) (M' : HexaData F64) (hr : readre2 nr b = .ok M') :
    M'.ncurv = 0 ∧ ∀ i < M.nel, (∀ e, (M'.el i).ccurv e = []) ∧ ∀ f, (M'.bc i 0 f) = BC.zero := by
  rw [writere2_ok nw M h] at hw
  simp only [Prod.mk.injEq, Option.some.injEq, and_true] at hw
  subst hw
  generalize fileEndian nw M.endian = e at hne hr
  have hd := h.dim
  obtain ⟨more, hhead⟩ := re2_header M.nel M.ndim hs (by omega)
    (encW e 4 (Flt.ofRat (eb := 8) (mb := 23) false (654321 / 100000)).bits ++
      ((M.elem.flatMap fun el => geomE e M.ndim el.pos) ++ (curvesE e M ++ (List.range M.nbc).flatMap (fieldE e M))))
  have hhead' : splitT (decodeB ((re2File e M).take 80)) = _ := hhead
  unfold readre2 at hr
  rw [hhead', re2File_tag e M hs hd, re2File_rest e M hs hd] at hr
  simp only [bind, Except.bind] at hr
  rw [pyInt_decI, pyInt_decI, tag_written e] at hr
  simp only [orValueError] at hr
  rw [if_neg (by omega)] at hr
  simp only [Int.toNat_natCast] at hr
  have hglen := re2Geom_length e M h.len
  rw [if_neg (by rw [List.length_append, hglen]; omega), if_neg (by omega), List.drop_left' hglen] at hr
  have hn : (curvedEdges M).length < 2 ^ 36 := by
    have h1 := curvedEdges_length M
    rw [h.len] at h1
    omega
  have h8 : (curvesE e M ++ (List.range M.nbc).flatMap (fieldE e M)).take 8 = encW e 8 (natF64 (curvedEdges M).length).bits := by
    unfold curvesE sectionE
    rw [List.append_assoc, List.take_left' (encW_length _ _ _)]
  rw [h8, countAt_foreign nr e hne _ hn] at hr
  have hwords : ∀ x, words 64 (0 : Int).toNat (readMany (64 * 0) x).1 = [] := fun _ => rfl
  have hmany : ∀ x, (readMany (64 * 0) x).2 = x := fun _ => rfl
  simp only [hwords, hmany, List.foldlM_nil, pure, Except.pure] at hr
  generalize hM0 : ({ (HexaData.new nr M.ndim M.nel ⟨2, 2, M.ndim - 1, true⟩ ⟨M.ndim, 0, 0, 0, 0⟩ 1 : HexaData F64) with
    ncurv := (Int.toNat 0), wdsz := 8, endian := some e, elem := _ } : HexaData F64) = M0 at hr
  have hl0 : M0.elem.length = M.nel := by rw [← hM0]; simp [HexaData.new]
  have he0 : ∀ i < M.nel, (M0.el i).rows = 1 ∧ (∀ k, (M0.el i).ccurv k = []) ∧ ∀ f, (M0.el i).bcs 0 f = BC.zero := by
    intro i hi
    rw [← hM0]
    unfold HexaData.el
    dsimp only
    rw [List.getD_eq_getElem?_getD]
    simp only [HexaData.new, List.getElem?_mapIdx, List.getElem?_replicate, hi, if_true, Option.map_some, Option.getD_some]
    exact ⟨rfl, fun _ => rfl, fun _ => rfl⟩
  have hkeep := readFields_keep _ _ _ _ _ _ _ hr
  have hrow : OneRow M0 := fun i hi => by rw [hl0] at hi; rw [(he0 i hi).1]
  have hfirst := readFields_start nr e hne _ _ M0 M' hrow (by
    unfold curvesE sectionE
    rw [List.append_assoc, List.drop_left' (encW_length _ _ _)]
    cases hc : curvedEdges M with
    | nil =>
      rw [List.flatMap_nil, List.nil_append]
      rcases Nat.eq_zero_or_pos M.nbc with h0 | h0
      · rw [h0]; exact .inl rfl
      · right
        obtain ⟨k, hk⟩ : ∃ k, M.nbc = k + 1 := ⟨M.nbc - 1, by omega⟩
        rw [hk, List.range_succ_eq_map, List.flatMap_cons]
        unfold fieldE sectionE
        have h1 := bcFaces_length M 0
        have h2 : M.nel * (2 * M.ndim) ≤ M.nel * 6 := Nat.mul_le_mul_left _ (by omega)
        rw [h.len] at h1
        rw [List.append_assoc]
        exact ⟨_, _, by omega, rfl⟩
    | cons t l =>
      right
      have ht : (t.1, t.2) ∈ curvedEdges M := by rw [hc]; exact List.mem_cons_self
      have h1 := ((mem_curvedEdges M t.1 t.2).mp ht).1
      rw [h.len] at h1
      rw [List.flatMap_cons]
      unfold recE
      rw [List.flatMap_cons, List.append_assoc, List.append_assoc, List.append_assoc]
      exact ⟨_, _, by omega, rfl⟩) hr
  refine ⟨?_, fun i hi => ⟨fun k => ?_, fun f => ?_⟩⟩
  · rw [hkeep.ncurv, ← hM0]
    rfl
  · rw [hkeep.ccurv i]
    exact (he0 i hi).2.1 k
  · unfold HexaData.bc
    rw [hfirst i]
    exact (he0 i hi).2.2 f

/-- As a consequence the mesh is not restored. -/
theorem C17_not_restored (nw nr : Endian) (M : HexaData F64) (h : Re2Mesh M) (hs : M.nel < 10 ^ 8)
    (hne : nr ≠ fileEndian nw M.endian)
    (hd : (∃ i < M.nel, ∃ e < 12, (M.el i).ccurv e ≠ []) ∨ ∃ i < M.nel, 0 < M.nbc ∧ ∃ f < 2 * M.ndim, Stored (M.bc i 0 f).typ)
    (b : Bytes) (hw : writere2 nw M = (some b, none)) (M' : HexaData F64) (hr : readre2 nr b = .ok M') : ¬ Restored M M' := by
  intro hres
  obtain ⟨-, hl⟩ := C17_lost nw nr M h hs hne b hw M' hr
  rcases hd with ⟨i, hi, e, he, hn⟩ | ⟨i, hi, h0, f, hf, hst⟩
  · have := ((hres.2.2.2 i hi).2.1 e he).1
    rw [(hl i hi).1 e] at this
    exact hn this.symm
  · have := (((hres.2.2.2 i hi).2.2 0 h0 f hf).1 hst).1
    rw [(hl i hi).2 f] at this
    exact hst.1 this.symm

/-! ### Header -/

/-- The first write of `writere2`. -/
theorem writere2_head (native : Endian) (M : HexaData F64) (b : Bytes) (h : (writere2 native M).1 = some b) :
    ∃ t, b = encodeT (re2Text M.nel M.ndim) ++ t := by
  unfold writere2 at h
  split at h
  · exact absurd h (by simp)
  · split at h
    · exact absurd h (by simp)
    · simp only [List.cons_append, List.nil_append, runWrites, Option.some.injEq] at h
      exact ⟨_, h.symm⟩

/-- **C18**, the part that holds: for fewer than `10^8` elements a mesh that is read has the number of elements and the
dimension that were written, whatever else is in the mesh and for all byte orders. Missing: nine-digit numbers, see
`C18_false`. -/
theorem C18_partial (nw nr : Endian) (M : HexaData F64) (hs : M.nel < 10 ^ 8) (hd : M.ndim < 100) (b : Bytes)
    (hw : (writere2 nw M).1 = some b) (M' : HexaData F64) (hr : readre2 nr b = .ok M') : M'.nel = M.nel ∧ M'.ndim = M.ndim := by
  obtain ⟨t, rfl⟩ := writere2_head nw M b hw
  obtain ⟨more, hhead⟩ := re2_header M.nel M.ndim hs hd t
  unfold readre2 at hr
  rw [hhead] at hr
  simp only [bind, Except.bind] at hr
  rw [pyInt_decI, pyInt_decI] at hr
  simp only [orValueError] at hr
  split at hr
  · exact absurd hr (by simp)
  · split at hr
    · exact absurd hr (by simp)
    · split at hr
      · exact absurd hr (by simp)
      · split at hr
        · exact absurd hr (by simp)
        · split at hr
          · exact absurd hr (by simp)
          · split at hr
            · exact absurd hr (by simp)
            · rename_i M1 hc
              have h1 := readFields_keep _ _ _ _ _ _ _ hr
              obtain ⟨a1, a2, -⟩ := foldCurve_keep _ _ _ _ _ hc
              exact ⟨by rw [h1.nel, a2]; simp [HexaData.new], by rw [h1.ndim, a1]; simp [HexaData.new]⟩

theorem isWord_append {a b : Text} (ha : IsWord a) (hb : IsWord b) : IsWord (a ++ b) :=
  ⟨by simp [ha.1], fun c hc => (List.mem_append.mp hc).elim (ha.2 c) (hb.2 c)⟩

theorem word_this : IsWord "this".toList := by unfold IsWord; decide

/-- With nine digits the number of elements sticks to its neighbours. -/
theorem re2_words_big (nel ndim : Nat) (h1 : 10 ^ 8 ≤ nel) (h2 : nel < 10 ^ 9) (hd : ndim < 100) :
    ∃ more, splitT (re2Text nel ndim) =
      ("#v002".toList ++ decI nel) :: (decI ndim ++ decI nel) :: "this".toList :: more := by
  have e1 := decN_length_eq 8 nel h1 h2
  have e2 := decN_length_le 1 ndim hd
  rw [← decI_nat] at e1 e2
  have r1 : rjust 9 (decI (nel : Int)) = decI nel := by
    unfold rjust
    rw [e1]
    rfl
  have w0 : IsWord ("#v002".toList ++ decI nel) := isWord_append re2_head_word (isWord_decI _)
  have w1 : IsWord (decI (ndim : Int) ++ decI (nel : Int)) := isWord_append (isWord_decI _) (isWord_decI _)
  have hthis : " this is the hdr".toList = ' ' :: ("this".toList ++ ' ' :: "is the hdr".toList) := by decide
  have hj : rjust 2 (decI (ndim : Int)) = List.replicate (2 - (decI (ndim : Int)).length) ' ' ++ decI (ndim : Int) := rfl
  unfold re2Text ljust
  rw [r1, rjust_blank 2 _ e2, hthis, hj]
  simp only [List.append_assoc, List.cons_append]
  rw [← List.append_assoc "#v002".toList, splitT_word' _ _ w0, ← List.append_assoc (decI (ndim : Int)), ← List.append_assoc (List.replicate _ _),
    splitT_word _ _ w1, splitT_word' _ _ word_this]
  exact ⟨_, rfl⟩

/-- **C18** is false in the code for every number of elements with nine digits: the file cannot be read. -/
theorem C18_false (nw nr : Endian) (M : HexaData F64) (h1 : 10 ^ 8 ≤ M.nel) (h2 : M.nel < 10 ^ 9) (hd : M.ndim < 100) (b : Bytes)
    (hw : (writere2 nw M).1 = some b) : readre2 nr b = .error .valueError := by
  obtain ⟨t, rfl⟩ := writere2_head nw M b hw
  obtain ⟨more, hhead⟩ := re2_words_big M.nel M.ndim h1 h2 hd
  unfold readre2
  rw [List.take_left' (by rw [encodeT_length, re2Text_length _ _ h2 (by omega)]), decodeB_ascii (re2Text_ascii _ _), hhead]
  have ht : pyInt "this".toList = none := by decide
  simp only [ht]
  cases pyInt (decI (M.ndim : Int) ++ decI (M.nel : Int)) <;> rfl

/-! ### Rejected meshes -/

/-- **C19**: `writere2` refuses a mesh, without opening the file, exactly when the sizes are not those of a vertex mesh. -/
theorem C19 (native : Endian) (M : HexaData F64) :
    ((M.lr1 ≠ ⟨2, 2, M.lr1.z, true⟩ ∨ M.lr1.z + 1 ≠ M.ndim) ∨ M.var.pos ≠ M.ndim → writere2 native M = (none, some .valueError)) ∧
    (M.lr1 = ⟨2, 2, M.lr1.z, true⟩ ∧ M.lr1.z + 1 = M.ndim ∧ M.var.pos = M.ndim →
      (writere2 native M).1 ≠ none ∧ (writere2 native M).2 ≠ some .valueError) := by
  have hlr : M.lr1 = ⟨2, 2, M.lr1.z, true⟩ ↔ M.lr1.isList = true ∧ M.lr1.x = 2 ∧ M.lr1.y = 2 := by
    rcases M.lr1 with ⟨x, y, z, l⟩
    simp only [Lr1.mk.injEq, true_and]
    tauto
  constructor
  · intro h
    unfold writere2
    by_cases h1 : M.lr1.isList = true ∧ M.lr1.x = 2 ∧ M.lr1.y = 2 ∧ M.lr1.z + 1 = M.ndim
    · rw [if_neg (not_not.mpr h1), if_pos]
      rcases h with (h | h) | h
      · exact absurd (hlr.mpr ⟨h1.1, h1.2.1, h1.2.2.1⟩) h
      · exact absurd h1.2.2.2 h
      · exact h
    · rw [if_pos h1]
  · rintro ⟨h1, h2, h3⟩
    obtain ⟨a1, a2, a3⟩ := hlr.mp h1
    unfold writere2
    rw [if_neg (not_not.mpr ⟨a1, a2, a3, h2⟩), if_neg (not_not.mpr h3)]
    refine ⟨by simp, fun he => ?_⟩
    have hmem := runWrites_err _ _ he
    simp only [List.mem_append, List.mem_cons, List.not_mem_nil, or_false, List.mem_map, reduceCtorEq, false_or] at hmem
    rcases hmem with ⟨el, -, h⟩ | ⟨k, -, h⟩
    · unfold re2Geom at h
      split at h <;> simp at h
    · unfold re2Bcs at h
      split at h <;> simp at h

/-- **C14** for `writere2`: whenever it raises `ValueError`, the file has not been opened. -/
theorem C14_writere2 (native : Endian) (M : HexaData F64) (h : (writere2 native M).2 = some .valueError) :
    (writere2 native M).1 = none := by
  by_contra hne
  by_cases hc : M.lr1 = ⟨2, 2, M.lr1.z, true⟩ ∧ M.lr1.z + 1 = M.ndim ∧ M.var.pos = M.ndim
  · exact ((C19 native M).2 hc).2 h
  · refine hne ?_
    rw [(C19 native M).1 (by tauto)]

/-! ### Curved edges and number of fields -/

/-- **C20**, the file: it does not depend on the attribute `ncurv`. -/
theorem C20_attribute (native : Endian) (M : HexaData F64) (k : Nat) : writere2 native { M with ncurv := k } = writere2 native M := rfl

/-- **C20**, the file: the number stored behind the coordinates is that of the edges with a curvature type. -/
theorem C20_file (native : Endian) (M : HexaData F64) (h : Re2Mesh M) (hs : M.nel < 10 ^ 8) :
    ∃ b, writere2 native M = (some b, none) ∧
      (b.drop (84 + (M.ndim * 2 ^ M.ndim + 1) * 8 * M.nel)).take 8 = encW (fileEndian native M.endian) 8 (natF64 (curvedCount M)).bits := by
  refine ⟨_, writere2_ok native M h, ?_⟩
  rw [← List.drop_drop, re2File_rest _ M hs h.dim, List.drop_left' (re2Geom_length _ M h.len)]
  unfold curvesE sectionE
  rw [List.append_assoc, List.take_left' (encW_length _ _ _), curvedEdges_count]

/-- **C20**, after reading. -/
theorem C20_read (nw nr : Endian) (M : HexaData F64) (h : Re2Mesh M) (hs : M.nel < 10 ^ 8)
    (hc : nr = fileEndian nw M.endian ∨ Plain M) (k : Nat) :
    ∃ b M', writere2 nw { M with ncurv := k } = (some b, none) ∧ readre2 nr b = .ok M' ∧
      M'.ncurv = (M.elem.map fun el => ((List.range 12).filter fun e => el.ccurv e ≠ []).length).sum := by
  obtain ⟨b, h1, h2⟩ := re2_roundtrip nw nr M h hs hc
  exact ⟨b, _, h1, h2, rfl⟩

/-- **C21**, the part that holds: meshes with at least one field. Missing: `nbc = 0`, see `C21_false`. -/
theorem C21_partial (nw nr : Endian) (M : HexaData F64) (h : Re2Mesh M) (hs : M.nel < 10 ^ 8)
    (hc : nr = fileEndian nw M.endian ∨ Plain M) (hb : 1 ≤ M.nbc) :
    ∃ b M', writere2 nw M = (some b, none) ∧ readre2 nr b = .ok M' ∧ M'.nbc = M.nbc ∧ ∀ i < M.nel, (M'.el i).rows = M.nbc := by
  obtain ⟨b, h1, h2⟩ := re2_roundtrip nw nr M h hs hc
  refine ⟨b, _, h1, h2, max_eq_right hb, fun i hi => ?_⟩
  rw [image_el _ M i hi]
  exact max_eq_right hb

/-- **C21** is false in the code for every mesh without fields: one field comes back. -/
theorem C21_false (nw nr : Endian) (M : HexaData F64) (h : Re2Mesh M) (hs : M.nel < 10 ^ 8)
    (hc : nr = fileEndian nw M.endian ∨ Plain M) (hb : M.nbc = 0) :
    ∃ b M', writere2 nw M = (some b, none) ∧ readre2 nr b = .ok M' ∧ M'.nbc = 1 := by
  obtain ⟨b, h1, h2⟩ := re2_roundtrip nw nr M h hs hc
  refine ⟨b, _, h1, h2, ?_⟩
  show max 1 M.nbc = 1
  omega

/-! ### Examples -/

namespace Samples

/-- Two hexahedra with an arc, two fields, external, periodic and internal boundary conditions. -/
def re2Mesh (e : Endian) : HexaData F64 :=
  let el (i : Nat) : Elem F64 :=
    { (Elem.new 0 0 0 2 2 2 2 : Elem F64) with
      pos := ⟨3, 2, 2, 2, fun d z y x => Flt.ofRat (decide (d = 1)) (((d + 2 * z + 3 * y + 5 * x + 7 * i : Nat) : ℚ) / 3)⟩
      curv := fun a j => if i = 1 ∧ a = 4 then natF64 (j + 2) else 0
      ccurv := fun a => if i = 1 ∧ a = 4 then ['C'] else []
      bcs := fun b f => if b = 0 ∧ f = 0 then ⟨"SYM".toList, 5, 6, natF64 7, 0, 0, 0, natF64 9⟩
        else if b = 1 ∧ f = 5 then ⟨['P'], 1, 1, natF64 2, natF64 6, 0, 0, 0⟩
        else if f = 2 then ⟨nE, 1, 1, natF64 2, natF64 3, 0, 0, 0⟩ else BC.zero }
  { (HexaData.new e 3 2 ⟨2, 2, 2, true⟩ ⟨3, 0, 0, 0, 0⟩ 2 : HexaData F64) with elem := [el 0, el 1] }

theorem re2Mesh_ok (e : Endian) : Re2Mesh (re2Mesh e) := by
  refine ⟨.inr rfl, rfl, rfl, rfl, ?_, ?_, ?_, ?_⟩
  · intro i (hi : i < 2)
    interval_cases i <;> exact ⟨le_refl 3, rfl, rfl, rfl⟩
  · intro i (hi : i < 2)
    interval_cases i <;> exact le_refl 2
  · intro i (hi : i < 2) a ha
    interval_cases i
    · exact .inl rfl
    · by_cases h : a = 4
      · subst h; exact .inr ⟨'C', rfl, by decide⟩
      · left
        show (if 1 = 1 ∧ a = 4 then ['C'] else []) = []
        simp [h]
  · intro i (hi : i < 2) b (hb : b < 2) f (hf : f < 6)
    interval_cases i <;> interval_cases b <;> interval_cases f <;> cases e <;> decide

end Samples

example : ∃ b M', writere2 .little (Samples.re2Mesh .little) = (some b, none) ∧ readre2 .little b = .ok M' ∧
    Restored (Samples.re2Mesh .little) M' := C16 .little _ (Samples.re2Mesh_ok _) (by decide) (.inr rfl)

/-- The file of the example has 84 bytes of header and tag, 2 × 200 of coordinates, 8 + 64 of curves, and 8 + 2 × 64 for
each field. -/
example : ((writere2 .little (Samples.re2Mesh .big)).1.map List.length, (writere2 .little (Samples.re2Mesh .big)).2) =
    (some (84 + 400 + 72 + 136 + 136), none) := by decide +kernel

/-- In the wrong byte order it is read without an error, and everything but the coordinates is lost. -/
example : ((writere2 .little (Samples.re2Mesh .big)).1.map fun b =>
    match readre2 .little b with
    | .ok M => some (M.nel, M.ncurv, (M.bc 0 0 0).typ, M.nbc)
    | .error _ => none) = some (some (2, 0, [], 42)) := by decide +kernel

example : ∀ b M', writere2 .little (Samples.re2Mesh .big) = (some b, none) → readre2 .little b = .ok M' →
    ¬ Restored (Samples.re2Mesh .big) M' := fun b M' hw hr =>
  C17_not_restored .little .little _ (Samples.re2Mesh_ok _) (by decide) (by decide)
    (.inl ⟨1, by decide, 4, by decide, by decide⟩) b hw M' hr

/-- Coordinates alone are read in both byte orders. -/
example : Plain { Samples.re2Mesh .big with nbc := 0, elem := (Samples.re2Mesh .big).elem.map fun el => { el with ccurv := fun _ => [] } } :=
  ⟨by decide +kernel, by intro i _ b hb; exact absurd hb (by simp)⟩

/-- A header with nine digits. -/
example : splitT (re2Text 123456789 3) = ["#v002123456789".toList, "3123456789".toList, "this".toList, "is".toList, "the".toList, "hdr".toList] := by
  decide +kernel

example : (readre2 .little (encodeT (re2Text 99999999 2))).isOk = false := by decide +kernel

example : writere2 .little { Samples.re2Mesh .little with lr1 := ⟨2, 2, 1, true⟩ } = (none, some .valueError) :=
  (C19 _ _).1 (.inl (.inr (by decide)))

example : ∃ b M', writere2 .little (Samples.re2Mesh .little) = (some b, none) ∧ readre2 .little b = .ok M' ∧ M'.nbc = 2 ∧
    ∀ i < 2, (M'.el i).rows = 2 := C21_partial .little .little _ (Samples.re2Mesh_ok _) (by decide) (.inl rfl) (by decide)

example : curvedCount (Samples.re2Mesh .little) = 1 := by decide

end Pymech
