import Verif.Lemmas.PrintShort
import Verif.Props.ReaLayout

/-!
# A `.rea` file that is read and written again: C114
-/

set_option autoImplicit false

namespace Pymech

open Spec

/-- Conditions that are read as empty have no parameters and the indices of their face. Between 1000 and a million elements the first index
of a condition is that of its element. From a million elements on there are no tiny parameters. -/
structure Spec.Steady (M : HexaData F64) : Prop where
  bcs : 10 ^ 6 ≤ M.nel → ∀ i < M.nel, ∀ b < M.nbc, ∀ f < 2 * M.ndim, Lasting (M.bc i b f).p3 ∧ Lasting (M.bc i b f).p4 ∧
    Lasting (M.bc i b f).p5 ∧ Lasting (M.bc i b f).p6 ∧ Lasting (M.bc i b f).p7
  own : 10 ^ 3 ≤ M.nel → M.nel < 10 ^ 6 → ∀ i < M.nel, ∀ b < M.nbc, ∀ f < 2 * M.ndim, (M.bc i b f).typ ≠ [] →
    (M.bc i b f).own = (i : Int) + 1
  silent : ∀ i < M.nel, ∀ b < M.nbc, ∀ f < 2 * M.ndim, Silent (M.bc i b f) →
    ((M.bc i b f).typ ≠ [] → (M.bc i b f).own = (i : Int) + 1 ∧ (M.bc i b f).ownFace = (f : Int) + 1) ∧
    (M.bc i b f).p3 = 0 ∧ (M.bc i b f).p4 = 0 ∧ (M.bc i b f).p5 = 0 ∧ (M.bc i b f).p6 = 0 ∧ (M.bc i b f).p7 = 0

theorem e14_again (x : F64) : e14 (printed 6 x) = e14 x := by
  unfold e14
  rw [fmtE_six x]

theorem e18_again (x : F64) (h : Lasting x) : e18 (printed 11 x) = e18 x := by
  unfold e18
  rw [fmtE_eleven x h]

/-- The line of a condition, written again. -/
theorem reaBC_again (nel i f : Nat) (r : BC F64)
    (hl : 10 ^ 6 ≤ nel → Lasting r.p3 ∧ Lasting r.p4 ∧ Lasting r.p5 ∧ Lasting r.p6 ∧ Lasting r.p7)
    (ho : 10 ^ 3 ≤ nel → nel < 10 ^ 6 → r.typ ≠ [] → r.own = (i : Int) + 1)
    (hs : Silent r → (r.typ ≠ [] → r.own = (i : Int) + 1 ∧ r.ownFace = (f : Int) + 1) ∧ r.p3 = 0 ∧ r.p4 = 0 ∧ r.p5 = 0 ∧ r.p6 = 0 ∧ r.p7 = 0) :
    reaBC nel ((bcV nel i f (r.mark i f)).mark i f) = reaBC nel (r.mark i f) := by
  have hne : nE ≠ [] := by decide
  by_cases hsil : Silent r
  · obtain ⟨h1, h3, h4, h5, h6, h7⟩ := hs hsil
    have hm : r.mark i f = ⟨nE, (i : Int) + 1, (f : Int) + 1, 0, 0, 0, 0, 0⟩ := by
      unfold BC.mark
      split
      · rw [h3, h4, h5, h6, h7]
      · rename_i ht
        obtain ⟨ho1, ho2⟩ := h1 ht
        have ht' : r.typ = nE := hsil.1.resolve_left ht
        obtain ⟨t, o, g, q3, q4, q5, q6, q7⟩ := r
        simp only at ht' ho1 ho2 h3 h4 h5 h6 h7
        rw [ht', ho1, ho2, h3, h4, h5, h6, h7]
    have hv : bcV nel i f (r.mark i f) = BC.zero := by
      unfold bcV
      rw [hm, if_pos ⟨rfl, rfl⟩]
    rw [hv, hm]
    rfl
  · have hnv : ¬ ((r.mark i f).typ = nE ∧ (r.mark i f).p3.mag = 0) := by
      rintro ⟨h1, h2⟩
      apply hsil
      unfold BC.mark at h1 h2
      split at h1
      · rename_i ht
        rw [if_pos ht] at h2
        exact ⟨.inl ht, h2⟩
      · rename_i ht
        rw [if_neg ht] at h2
        exact ⟨.inr h1, h2⟩
    have ht : (r.mark i f).typ ≠ [] := by
      unfold BC.mark
      split
      · exact hne
      · assumption
    have hown : 10 ^ 3 ≤ nel → nel < 10 ^ 6 → (r.mark i f).own = (i : Int) + 1 := by
      intro a b
      unfold BC.mark
      split
      · rfl
      · exact ho a b ‹_›
    have q3 : (r.mark i f).p3 = r.p3 := by unfold BC.mark; split <;> rfl
    have q4 : (r.mark i f).p4 = r.p4 := by unfold BC.mark; split <;> rfl
    have q5 : (r.mark i f).p5 = r.p5 := by unfold BC.mark; split <;> rfl
    have q6 : (r.mark i f).p6 = r.p6 := by unfold BC.mark; split <;> rfl
    have q7 : (r.mark i f).p7 = r.p7 := by unfold BC.mark; split <;> rfl
    rw [← q3, ← q4, ← q5, ← q6, ← q7] at hl
    clear q3 q4 q5 q6 q7 ho hs hsil
    generalize r.mark i f = r' at *
    have hv : (bcV nel i f r').mark i f = bcV nel i f r' := by
      unfold BC.mark
      rw [if_neg]
      unfold bcV
      rw [if_neg hnv]
      exact ht
    rw [hv]
    unfold bcV reaBC bcDigits
    rw [if_neg hnv]
    dsimp only
    by_cases h3 : nel < 10 ^ 3
    · rw [if_pos h3, if_pos h3, if_pos (show nel < 10 ^ 6 by omega), if_neg (by omega), if_neg (by omega),
        e14_again, e14_again, e14_again, e14_again, e14_again]
    · by_cases h6 : nel < 10 ^ 6
      · rw [if_neg h3, if_neg h3, if_pos h6, if_pos h6, if_pos h6, if_pos ⟨by omega, h6⟩, hown (by omega) h6,
          e14_again, e14_again, e14_again, e14_again, e14_again]
      · obtain ⟨l3, l4, l5, l6, l7⟩ := hl (by omega)
        rw [if_neg h3, if_neg h3, if_neg h6, if_neg h6, if_neg h6, if_neg (by omega), if_neg (by omega),
          e18_again _ l3, e18_again _ l4, e18_again _ l5, e18_again _ l6, e18_again _ l7]

/-- The lines of an element, written again. -/
theorem reaGeo_again (nd i : Nat) (hnd : nd = 2 ∨ nd = 3) (a : Arr F64) : reaGeo nd i (readArr nd a) = reaGeo nd i a := by
  have key : ∀ d < nd, ∀ z < nd - 1, quadT (readArr nd a) d z = quadT a d (endOf z a.lz) := by
    intro d hd z hz
    have e : ∀ y < 2, ∀ x < 2, e14 ((readArr nd a).dat d z y x) = e14 (a.dat d (endOf z a.lz) (endOf y a.ly) (endOf x a.lx)) := by
      intro y hy x hx
      unfold readArr
      dsimp only
      rw [if_pos ⟨hd, hz, hy, hx⟩, e14_again]
      rfl
    have e00 := e 0 (by omega) 0 (by omega)
    have e01 := e 0 (by omega) 1 (by omega)
    have e11 := e 1 (by omega) 1 (by omega)
    have e10 := e 1 (by omega) 0 (by omega)
    have f0 : ∀ n, endOf 0 n = 0 := fun n => if_pos rfl
    have f1 : ∀ n, endOf 1 n = n - 1 := fun n => if_neg (by omega)
    rw [f0, f0] at e00
    rw [f0, f1] at e01
    rw [f1, f1] at e11
    rw [f1, f0] at e10
    unfold quadT
    rw [show (readArr nd a).lx = 2 from rfl, show (readArr nd a).ly = 2 from rfl, show 2 - 1 = 1 from rfl, e00, e01, e11, e10]
  have f0 : endOf 0 a.lz = 0 := if_pos rfl
  have f1 : endOf 1 a.lz = a.lz - 1 := if_neg (by omega)
  unfold reaGeo
  rcases hnd with rfl | rfl
  · rw [if_pos rfl, if_pos rfl, key 0 (by omega) 0 (by omega), key 1 (by omega) 0 (by omega), f0]
  · rw [if_neg (show ¬ 3 = 2 by omega), if_neg (show ¬ 3 = 2 by omega), if_pos rfl, if_pos rfl, show (readArr 3 a).lz - 1 = 1 from rfl,
      key 0 (by omega) 0 (by omega), key 1 (by omega) 0 (by omega), key 2 (by omega) 0 (by omega),
      key 0 (by omega) 1 (by omega), key 1 (by omega) 1 (by omega), key 2 (by omega) 1 (by omega), f0, f1]

theorem image_sized (native : Endian) (M : HexaData F64) (h : ReaMesh M) : Sized (reaImage native M) where
  dim := h.dim
  len := by simp [reaImage]
  shape := by
    intro i hi
    have hi' : i < M.nel := hi
    have hd := h.dim
    rw [reaImage_el native M i hi']
    refine ⟨?_, ?_, ?_, ?_⟩
    · show M.ndim ≤ 3
      omega
    · show 0 < M.ndim - 1
      omega
    · show 0 < 2
      omega
    · show 0 < 2
      omega
  rows := by
    intro i hi
    rw [reaImage_el native M i hi]
    exact le_refl _

theorem image_edges (native : Endian) (M : HexaData F64) : reaEdges (reaImage native M) = reaEdges M := by
  conv_lhs => unfold reaEdges
  conv_rhs => unfold reaEdges
  apply List.filter_congr
  rintro ⟨i, e⟩ ht
  rw [show (reaImage native M).nel = M.nel from rfl, mem_prod2, List.mem_range, List.mem_range] at ht
  apply decide_eq_decide.mpr
  dsimp only
  rw [reaImage_el native M i ht.1]
  unfold reaElem
  dsimp only
  by_cases hm : (i, e) ∈ reaEdges M
  · rw [if_pos hm]
  · rw [if_neg hm]
    rw [mem_reaEdges] at hm
    have : (M.el i).ccurv e = [] := by
      by_contra hc
      exact hm ⟨ht.1, ht.2, hc⟩
    rw [this]

/-- The text of the mesh that was read. -/
theorem image_text (native : Endian) (M : HexaData F64) (h : ReaMesh M) (hs : Steady M) (hn : M.ncurv = curvedCount M) :
    reaText (reaImage native M) = reaText M := by
  have hg : (List.range M.nel).map (geoT (reaImage native M)) = (List.range M.nel).map (geoT M) := by
    apply List.map_congr_left
    intro i hi
    rw [List.mem_range] at hi
    unfold geoT
    rw [reaImage_el native M i hi]
    exact reaGeo_again M.ndim i h.dim (M.el i).pos
  have he : (reaEdges M).map (edgeT (reaImage native M)) = (reaEdges M).map (edgeT M) := by
    apply List.map_congr_left
    rintro ⟨i, e⟩ ht
    obtain ⟨hi, he, hne⟩ := (mem_reaEdges M i e).mp ht
    have hc : ∀ j < 5, e14 (((reaImage native M).el i).curv e j) = e14 ((M.el i).curv e j) := by
      intro j hj
      rw [reaImage_el native M i hi]
      unfold reaElem
      dsimp only
      rw [if_pos ⟨ht, hj⟩, e14_again]
    have ht' : ((reaImage native M).el i).ccurv e = (M.el i).ccurv e := by
      rw [reaImage_el native M i hi]
      exact if_pos ht
    unfold edgeT reaCurve
    dsimp only
    rw [hc 0 (by omega), hc 1 (by omega), hc 2 (by omega), hc 3 (by omega), hc 4 (by omega), ht']
    rfl
  have hb : ∀ b < M.nbc, fieldT (reaImage native M) b = fieldT M b := by
    intro b hb
    unfold fieldT
    congr 1
    apply List.map_congr_left
    rintro ⟨i, f⟩ ht
    rw [mem_prod2, List.mem_range, List.mem_range] at ht
    obtain ⟨hi, hf⟩ := ht
    have hi : i < M.nel := hi
    have hf : f < 2 * M.ndim := hf
    unfold bcT
    dsimp only
    have e : (reaImage native M).bc i b f = bcV M.nel i f ((M.bc i b f).mark i f) := by
      unfold HexaData.bc
      rw [reaImage_el native M i hi]
      unfold reaElem
      dsimp only
      rw [if_pos ⟨hb, hf⟩]
      rfl
    rw [e]
    exact reaBC_again M.nel i f (M.bc i b f) (fun a => hs.bcs a i hi b hb f hf) (fun a b' => hs.own a b' i hi b hb f hf) (hs.silent i hi b hb f hf)
  have hf : fieldsT (reaImage native M) = fieldsT M := by
    unfold fieldsT
    rw [show (reaImage native M).nbc = M.nbc from rfl]
    split
    · rfl
    · rw [List.flatMap_def, List.flatMap_def]
      congr 1
      apply List.map_congr_left
      intro b hb'
      exact hb b (List.mem_range.mp hb')
  unfold reaText
  rw [hf, image_edges, he, List.flatMap_def, List.flatMap_def, show (reaImage native M).nel = M.nel from rfl, hg,
    show (reaImage native M).ncurv = M.ncurv from (reaEdges_length M h.len).trans hn.symm]
  rfl

/-- **C114**, the part that holds: a `.rea` file is reproduced when it is read and written again, if the mesh it was written from is steady. -/
theorem C114_partial (native : Endian) (M : HexaData F64) (h : ReaMesh M) (hb : 0 < M.nbc) (hn : M.ncurv = curvedCount M) (hs : Steady M) :
    ∃ M', readrea native (writerea M).1 = .ok M' ∧ (writerea M').1 = (writerea M).1 := by
  refine ⟨_, rea_roundtrip native M h hb hn, ?_⟩
  rw [writerea_ok M h]
  unfold writerea
  rw [reaLines_ok _ (image_sized native M h), runLines_ok, image_text native M h hs hn]

/-! ### Meshes that are not reproduced -/

theorem image_lines (native : Endian) (M : HexaData F64) (h : ReaMesh M) : ∀ l ∈ reaText (reaImage native M), '\n' ∉ l := by
  apply reaText_lines'
  · intro i hi e he
    rw [reaImage_el native M i hi]
    unfold reaElem
    dsimp only
    split
    · exact h.curv i hi e he
    · decide
  · intro i hi b hb f hf
    have hi : i < M.nel := hi
    have hb : b < M.nbc := hb
    have hf : f < 2 * M.ndim := hf
    unfold HexaData.bc
    rw [reaImage_el native M i hi]
    unfold reaElem
    dsimp only
    rw [if_pos ⟨hb, hf⟩]
    unfold bcV
    split
    · decide
    · exact mark_label (h.names i hi b hb f hf)

/-- If the file is reproduced, so is every line. -/
theorem image_text_of (native : Endian) (M : HexaData F64) (h : ReaMesh M) (he : (writerea (reaImage native M)).1 = (writerea M).1) :
    reaText (reaImage native M) = reaText M := by
  rw [writerea_ok M h] at he
  unfold writerea at he
  rw [reaLines_ok _ (image_sized native M h), runLines_ok] at he
  dsimp only at he
  have h1 := linesT_lines _ (image_lines native M h)
  rw [he, linesT_lines _ (reaText_lines M h)] at h1
  exact (List.map_injective_iff.mpr (fun a b hab => List.append_cancel_right hab)) h1.symm

theorem e14_cancel {a b : Text} {x y : F64} (h : a ++ e14 x = b ++ e14 y) : a = b ∧ e14 x = e14 y :=
  List.append_inj' h (by rw [e14_length, e14_length])

theorem e18_length (x : F64) (h : Narrow x) : (e18 x).length = 18 := rjust_length 18 _ (narrow_length 11 x h)

theorem e18_cancel {a b : Text} {x y : F64} (hx : Narrow x) (hy : Narrow y) (h : a ++ e18 x = b ++ e18 y) : a = b ∧ e18 x = e18 y :=
  List.append_inj' h (by rw [e18_length x hx, e18_length y hy])

theorem printed_of_column (p n : Nat) (hp : 0 < p) (x y : F64) (h : rjust n (fmtE 'e' p x) = rjust n (fmtE 'e' p y)) : printed p x = printed p y := by
  have h1 := congrArg stripT h
  rw [stripT_rjust _ _ (noBlank_fmtE p x), stripT_rjust _ _ (noBlank_fmtE p y)] at h1
  have h2 := pyFloat_fmtE 'e' (.inr rfl) p hp x
  rw [h1, pyFloat_fmtE 'e' (.inr rfl) p hp y] at h2
  exact (Option.some.inj h2).symm

/-- Equal lines hold equal parameters. -/
theorem reaBC_params (nel : Nat) (r s : BC F64)
    (hr : 10 ^ 6 ≤ nel → Narrow r.p3 ∧ Narrow r.p4 ∧ Narrow r.p5 ∧ Narrow r.p6 ∧ Narrow r.p7)
    (hs : 10 ^ 6 ≤ nel → Narrow s.p3 ∧ Narrow s.p4 ∧ Narrow s.p5 ∧ Narrow s.p6 ∧ Narrow s.p7) (h : reaBC nel r = reaBC nel s) :
    printed (bcDigits nel) r.p4 = printed (bcDigits nel) s.p4 ∧ printed (bcDigits nel) r.p5 = printed (bcDigits nel) s.p5 ∧
    printed (bcDigits nel) r.p6 = printed (bcDigits nel) s.p6 ∧ printed (bcDigits nel) r.p7 = printed (bcDigits nel) s.p7 := by
  unfold reaBC at h
  unfold bcDigits
  by_cases h3 : nel < 10 ^ 3
  · rw [if_pos h3, if_pos h3] at h
    rw [if_pos (show nel < 10 ^ 6 by omega)]
    simp only [← List.append_assoc] at h
    obtain ⟨h, h7⟩ := e14_cancel h
    obtain ⟨h, h6⟩ := e14_cancel h
    obtain ⟨h, h5⟩ := e14_cancel h
    obtain ⟨h, h4⟩ := e14_cancel h
    exact ⟨printed_of_column 6 14 (by omega) _ _ h4, printed_of_column 6 14 (by omega) _ _ h5, printed_of_column 6 14 (by omega) _ _ h6,
      printed_of_column 6 14 (by omega) _ _ h7⟩
  · by_cases hm : nel < 10 ^ 6
    · rw [if_neg h3, if_neg h3, if_pos hm, if_pos hm] at h
      rw [if_pos hm]
      simp only [← List.append_assoc] at h
      obtain ⟨h, h7⟩ := e14_cancel h
      obtain ⟨h, h6⟩ := e14_cancel h
      obtain ⟨h, h5⟩ := e14_cancel h
      obtain ⟨h, h4⟩ := e14_cancel h
      exact ⟨printed_of_column 6 14 (by omega) _ _ h4, printed_of_column 6 14 (by omega) _ _ h5, printed_of_column 6 14 (by omega) _ _ h6,
        printed_of_column 6 14 (by omega) _ _ h7⟩
    · rw [if_neg h3, if_neg h3, if_neg hm, if_neg hm] at h
      rw [if_neg hm]
      obtain ⟨-, r4, r5, r6, r7⟩ := hr (by omega)
      obtain ⟨-, s4, s5, s6, s7⟩ := hs (by omega)
      simp only [← List.append_assoc] at h
      obtain ⟨h, h7⟩ := e18_cancel r7 s7 h
      obtain ⟨h, h6⟩ := e18_cancel r6 s6 h
      obtain ⟨h, h5⟩ := e18_cancel r5 s5 h
      obtain ⟨h, h4⟩ := e18_cancel r4 s4 h
      exact ⟨printed_of_column 11 18 (by omega) _ _ h4, printed_of_column 11 18 (by omega) _ _ h5, printed_of_column 11 18 (by omega) _ _ h6,
        printed_of_column 11 18 (by omega) _ _ h7⟩

/-- If the file is reproduced, so is the line of every condition. -/
theorem image_bc_of (native : Endian) (M : HexaData F64) (h : ReaMesh M) (he : (writerea (reaImage native M)).1 = (writerea M).1)
    (i b f : Nat) (hi : i < M.nel) (hb' : b < M.nbc) (hf : f < 2 * M.ndim) :
    reaBC M.nel ((M.bc i b f).mark i f) = reaBC M.nel (((reaImage native M).bc i b f).mark i f) := by
  have ht := image_text_of native M h he
  have hlt := row_lt hi hf
  have hd := h.dim
  have l1 := text_field M hd b (i * (2 * M.ndim) + f + 1) hb' (by omega)
  have l2 := text_field (reaImage native M) hd b (i * (2 * M.ndim) + f + 1) hb' (show _ < 1 + M.nel * (2 * M.ndim) by omega)
  have hk : fieldLine (reaImage native M) (reaEdges M) b = fieldLine M (reaEdges M) b := rfl
  rw [ht, image_edges, hk, l1] at l2
  unfold fieldT at l2
  rw [List.getElem?_cons_succ, List.getElem?_cons_succ, List.getElem?_map, List.getElem?_map,
    show (reaImage native M).nel = M.nel from rfl, show (reaImage native M).ndim = M.ndim from rfl,
    getElem?_prod2 _ _ _ _ hi hf, Option.map_some, Option.map_some, Option.some.injEq] at l2
  exact l2

theorem mark_params (i f : Nat) (r : BC F64) :
    (r.mark i f).p3 = r.p3 ∧ (r.mark i f).p4 = r.p4 ∧ (r.mark i f).p5 = r.p5 ∧ (r.mark i f).p6 = r.p6 ∧ (r.mark i f).p7 = r.p7 := by
  unfold BC.mark
  split <;> exact ⟨rfl, rfl, rfl, rfl, rfl⟩

/-- **C114** is false in the code: an internal or empty condition whose first parameter is zero is read as an empty one. If another of its
parameters is not zero, the second file differs from the first. -/
theorem C114_false (native : Endian) (M : HexaData F64) (h : ReaMesh M) (hb : 0 < M.nbc) (hn : M.ncurv = curvedCount M)
    (i b f : Nat) (hi : i < M.nel) (hb' : b < M.nbc) (hf : f < 2 * M.ndim) (hs : Silent (M.bc i b f))
    (hp : (M.bc i b f).p4.mag ≠ 0 ∨ (M.bc i b f).p5.mag ≠ 0 ∨ (M.bc i b f).p6.mag ≠ 0 ∨ (M.bc i b f).p7.mag ≠ 0) :
    ∃ M', readrea native (writerea M).1 = .ok M' ∧ (writerea M').1 ≠ (writerea M).1 := by
  refine ⟨_, rea_roundtrip native M h hb hn, fun he => ?_⟩
  have l2 := image_bc_of native M h he i b f hi hb' hf
  have e : (reaImage native M).bc i b f = BC.zero := (reaImage_restored native M h).silent i hi b hb' f hf hs
  rw [e] at l2
  have hz : Narrow (0 : F64) := .inl rfl
  obtain ⟨q4, q5, q6, q7⟩ := reaBC_params M.nel _ _ (fun h6 => ((mark_fits h hi hb' hf).2.2 h6).2.2.2.2) (fun _ => ⟨hz, hz, hz, hz, hz⟩) l2
  obtain ⟨-, m4, m5, m6, m7⟩ := mark_params i f (M.bc i b f)
  have hpos : 0 < bcDigits M.nel := by unfold bcDigits; split <;> omega
  have key : ∀ x : F64, printed (bcDigits M.nel) x = printed (bcDigits M.nel) 0 → x.mag = 0 := fun x hx =>
    (printed_zero _ hpos x).mp (by rw [hx]; exact (printed_zero _ hpos 0).mpr rfl)
  rw [m4] at q4
  rw [m5] at q5
  rw [m6] at q6
  rw [m7] at q7
  rcases hp with hp | hp | hp | hp
  · exact hp (key _ q4)
  · exact hp (key _ q5)
  · exact hp (key _ q6)
  · exact hp (key _ q7)


namespace Samples

/-- A square whose first coordinate is `x` everywhere, with the same condition on all sides. -/
def square (x : F64) (r : BC F64) : HexaData F64 :=
  let M : HexaData F64 := HexaData.new .little 2 1 ⟨2, 2, 1, true⟩ ⟨2, 0, 0, 0, 0⟩ 1
  { M with elem := [{ M.el 0 with pos := { (M.el 0).pos with dat := fun d _ _ _ => if d = 0 then x else 0 }, bcs := fun _ _ => r }] }

theorem square_ok (x : F64) (r : BC F64) (hx : Narrow x) (hr : Label 2 r.typ) (hc : FitsColumns 1 r) : ReaMesh (square x r) where
  dim := .inl rfl
  len := rfl
  size := show 1 < 10 ^ 10 by omega
  shape := by
    intro i (hi : i < 1)
    interval_cases i
    exact ⟨show 2 ≤ 3 by omega, show 0 < 1 by omega, show 0 < 2 by omega, show 0 < 2 by omega⟩
  coords := by
    intro i (hi : i < 1) d _ z _ y _ x' _
    interval_cases i
    show Narrow (if d = 0 then x else 0)
    split
    · exact hx
    · exact .inl rfl
  rows := by
    intro i (hi : i < 1)
    interval_cases i
    exact show 1 ≤ 1 by omega
  curv := by
    intro i (hi : i < 1) e _
    interval_cases i
    exact ⟨Nat.zero_le _, fun c hc => by cases hc⟩
  names := by
    intro i (hi : i < 1) b _ f _
    interval_cases i
    exact hr
  columns := by
    intro i (hi : i < 1) b _ f _ _
    interval_cases i
    exact hc
  plain := fun h => absurd h (show ¬ 10 ^ 6 ≤ 1 by omega)

/-- An internal condition with a second parameter. -/
def loud : BC F64 := ⟨nE, 1, 1, 0, natF64 1, 0, 0, 0⟩

/-- A number below the smallest normal one. -/
def tiny : F64 := ⟨false, 202402253308, by decide⟩

/-- The number before it. -/
def less : F64 := ⟨false, 202402253307, by decide⟩

theorem fmtE_digits (p m : Nat) (e : Int) (x : F64) (h1 : x.Finite) (h2 : x.mag ≠ 0) (h3 : x.neg = false)
    (h : sigDigits p (Flt.magVal 11 52 x.mag) = (m, e)) : fmtE 'e' p x = pointed (decN m) ++ expPart 'e' e := by
  unfold fmtE
  rw [if_neg (finite_not_nan h1)]
  dsimp only
  rw [if_neg (not_not.mpr h1), if_neg h2, h3, h]
  rfl

theorem tiny_read : printed 11 tiny = less := by decide +kernel

theorem tiny_text : fmtE 'e' 11 tiny = "1.00000000000e-312".toList := by
  rw [fmtE_digits 11 100000000000 (-312) tiny (by decide +kernel) (by decide) rfl (by decide +kernel)]
  unfold expPart dec02
  rw [if_pos (by omega), if_neg (by decide), decN_toDigits, decN_toDigits]
  decide +kernel

theorem less_text : fmtE 'e' 11 less = "9.99999999998e-313".toList := by
  rw [fmtE_digits 11 999999999998 (-313) less (by decide +kernel) (by decide) rfl (by decide +kernel)]
  unfold expPart dec02
  rw [if_pos (by omega), if_neg (by decide), decN_toDigits, decN_toDigits]
  decide +kernel

/-- A million squares with a parameter that is tiny. -/
def million : HexaData F64 :=
  { square 0 ⟨nP, 1, 1, natF64 1, 0, 0, 0, tiny⟩ with
    nel := 10 ^ 6, elem := List.replicate (10 ^ 6) ((square 0 ⟨nP, 1, 1, natF64 1, 0, 0, 0, tiny⟩).el 0) }

theorem million_nel : million.nel = 10 ^ 6 := rfl

theorem million_el (i : Nat) (hi : i < 10 ^ 6) : million.el i = (square 0 ⟨nP, 1, 1, natF64 1, 0, 0, 0, tiny⟩).el 0 := by
  unfold HexaData.el
  rw [List.getD_eq_getElem?_getD, show million.elem = List.replicate (10 ^ 6) ((square 0 ⟨nP, 1, 1, natF64 1, 0, 0, 0, tiny⟩).el 0) from rfl,
    List.getElem?_replicate, if_pos hi]
  rfl

theorem million_ok : ReaMesh million where
  dim := .inl rfl
  len := List.length_replicate
  size := show 10 ^ 6 < 10 ^ 10 by omega
  shape := by
    intro i hi
    rw [million_el i hi]
    exact ⟨show 2 ≤ 3 by omega, show 0 < 1 by omega, show 0 < 2 by omega, show 0 < 2 by omega⟩
  coords := by
    intro i hi d _ z _ y _ x' _
    rw [million_el i hi]
    show Narrow (if d = 0 then 0 else 0)
    split <;> exact .inl rfl
  rows := by
    intro i hi
    rw [million_el i hi]
    exact show 1 ≤ 1 by omega
  curv := by
    intro i hi e _
    rw [million_el i hi]
    exact ⟨Nat.zero_le _, fun c hc => by cases hc⟩
  names := by
    intro i hi b _ f _
    unfold HexaData.bc
    rw [million_el i hi]
    show Label 2 nP
    decide
  columns := by
    intro i hi b _ f _ _
    unfold HexaData.bc
    rw [million_el i hi]
    exact ⟨fun h => absurd h (show ¬ 10 ^ 6 < 10 ^ 3 by omega), fun _ h => absurd h (show ¬ 10 ^ 6 < 10 ^ 6 by omega),
      fun _ => ⟨show (-9999999999 : Int) ≤ 1 by omega, show (1 : Int) ≤ 99999999999 by omega, show (0 : Int) ≤ 1 by omega, show (1 : Int) ≤ 9 by omega,
        .inl rfl, .inl rfl, .inl rfl, .inl rfl, .inl rfl⟩⟩
  plain := by
    intro _ i hi b _ f _ ht
    unfold HexaData.bc at ht
    rw [million_el i hi] at ht
    exact absurd (show nP = [] from ht) (by decide)

theorem million_curves : million.ncurv = curvedCount million := by
  rw [← reaEdges_length million million_ok.len]
  have : reaEdges million = [] := by
    apply List.eq_nil_iff_forall_not_mem.mpr
    rintro ⟨i, e⟩ ht
    obtain ⟨hi, -, hc⟩ := (mem_reaEdges million i e).mp ht
    rw [million_el i hi] at hc
    exact hc rfl
  rw [this]
  rfl

end Samples


/-- Nor are some numbers below the normal ones reproduced if there are a million elements or more. -/
theorem C114_tiny (native : Endian) (M : HexaData F64) (h : ReaMesh M) (hb : 0 < M.nbc) (hn : M.ncurv = curvedCount M) (hm : 10 ^ 6 ≤ M.nel)
    (i b f : Nat) (hi : i < M.nel) (hb' : b < M.nbc) (hf : f < 2 * M.ndim) (hs : ¬ Silent (M.bc i b f)) (hp : (M.bc i b f).p7 = Samples.tiny) :
    ∃ M', readrea native (writerea M).1 = .ok M' ∧ (writerea M').1 ≠ (writerea M).1 := by
  refine ⟨_, rea_roundtrip native M h hb hn, fun he => ?_⟩
  have l2 := image_bc_of native M h he i b f hi hb' hf
  have q1 : ((M.bc i b f).mark i f).p7 = Samples.tiny := (mark_params i f _).2.2.2.2.trans hp
  have q2 : (((reaImage native M).bc i b f).mark i f).p7 = printed 11 Samples.tiny := by
    rw [(mark_params i f _).2.2.2.2, reaImage_bc native M i b f hi hb' hf]
    unfold bcV
    rw [if_neg]
    · dsimp only
      rw [q1]
      unfold bcDigits
      rw [if_neg (by omega)]
    · rintro ⟨h1, h2⟩
      apply hs
      rw [(mark_params i f _).1] at h2
      unfold BC.mark at h1
      split at h1
      · exact ⟨.inl ‹_›, h2⟩
      · exact ⟨.inr h1, h2⟩
  unfold reaBC at l2
  rw [if_neg (by omega), if_neg (by omega), if_neg (by omega), if_neg (by omega), q1, q2] at l2
  simp only [← List.append_assoc] at l2
  have n1 : Narrow Samples.tiny := .inl rfl
  have n2 : Narrow (printed 11 Samples.tiny) := by
    rw [Samples.tiny_read]
    exact .inl rfl
  have l3 := congrArg stripT (e18_cancel n1 n2 l2).2
  unfold e18 at l3
  rw [stripT_rjust _ _ (noBlank_fmtE _ _), stripT_rjust _ _ (noBlank_fmtE _ _), Samples.tiny_read, Samples.tiny_text, Samples.less_text] at l3
  exact absurd l3 (by decide +kernel)

/-! ### Examples -/

/-- A mesh that is reproduced. -/
theorem Samples.square_steady : Steady (square (natF64 3) ⟨nP, 1, 2, natF64 1, natF64 4, 0, 0, 0⟩) where
  bcs := fun h => absurd h (show ¬ 10 ^ 6 ≤ 1 by omega)
  own := fun h => absurd h (show ¬ 10 ^ 3 ≤ 1 by omega)
  silent := by
    intro i (hi : i < 1) b _ f _ hs
    interval_cases i
    exact absurd hs.2 (show (natF64 1).mag ≠ 0 by decide +kernel)

example : ∃ M', readrea .big (writerea (Samples.square (natF64 3) ⟨nP, 1, 2, natF64 1, natF64 4, 0, 0, 0⟩)).1 = .ok M' ∧
    (writerea M').1 = (writerea (Samples.square (natF64 3) ⟨nP, 1, 2, natF64 1, natF64 4, 0, 0, 0⟩)).1 :=
  C114_partial .big _ (Samples.square_ok _ _ (.inl rfl) (by decide)
    ⟨fun _ => by decide, fun h => absurd h (by omega), fun h => absurd h (by omega)⟩) (by decide) (by decide +kernel) Samples.square_steady

example : ∃ M', readrea .little (writerea (Samples.square 0 Samples.loud)).1 = .ok M' ∧
    (writerea M').1 ≠ (writerea (Samples.square 0 Samples.loud)).1 :=
  C114_false .little _ (Samples.square_ok 0 Samples.loud (.inl rfl) (by decide)
    ⟨fun _ => by decide, fun h => absurd h (by omega), fun h => absurd h (by omega)⟩) (by decide) (by decide +kernel) 0 0 0 (by decide) (by decide)
    (by decide) ⟨.inr rfl, rfl⟩ (.inl (by decide +kernel))

example : ∃ M', readrea .little (writerea Samples.million).1 = .ok M' ∧ (writerea M').1 ≠ (writerea Samples.million).1 := by
  refine C114_tiny .little _ Samples.million_ok (show 0 < 1 by omega) Samples.million_curves (by rw [Samples.million_nel]) 0 0 0
    (by rw [Samples.million_nel]; omega) (show 0 < 1 by omega) (show 0 < 4 by omega) ?_ ?_
  · intro h
    unfold HexaData.bc at h
    rw [Samples.million_el 0 (by omega)] at h
    exact absurd h.2 (show (natF64 1).mag ≠ 0 by decide +kernel)
  · unfold HexaData.bc
    rw [Samples.million_el 0 (by omega)]
    rfl

end Pymech
