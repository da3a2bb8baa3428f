import Verif.Props.Rea

/-!
# `.rea` files that are left incomplete: C117
-/

set_option autoImplicit false

namespace Pymech

open Spec

/-- The lists and arrays of the mesh hold what its numbers announce: elements, vertices and rows of boundary conditions. -/
def Spec.ReaEquipped (M : HexaData F64) : Prop :=
  M.nel ≤ M.elem.length ∧ ∀ i < M.nel, (M.ndim ≤ (M.el i).pos.n ∧ 0 < (M.el i).pos.lz ∧ 0 < (M.el i).pos.ly ∧ 0 < (M.el i).pos.lx) ∧
    M.nbc ≤ (M.el i).rows

theorem runLines_none (l : List (Py Text)) : (runLines l).2 = none ↔ ∀ a ∈ l, ∃ t, a = .ok t := by
  induction l with
  | nil => simp [runLines]
  | cons a l ih =>
    cases a with
    | error y => simp [runLines]
    | ok b =>
      simp only [runLines, List.mem_cons, forall_eq_or_imp]
      rw [ih]
      exact ⟨fun h => ⟨⟨b, rfl⟩, h⟩, fun h => h.2⟩

theorem runLines_err (l : List (Py Text)) (x : PyErr) (h : (runLines l).2 = some x) : .error x ∈ l := by
  induction l with
  | nil => simp [runLines] at h
  | cons a l ih =>
    cases a with
    | error y =>
      simp only [runLines, Option.some.injEq] at h
      rw [h]
      exact List.mem_cons_self
    | ok b => exact List.mem_cons_of_mem _ (ih h)

/-- Nothing follows the line at which an exception is raised. -/
theorem runLines_cut (l : List Text) (x : PyErr) (r : List (Py Text)) :
    runLines (l.map .ok ++ .error x :: r) = ((l.map lineT).flatten, some x) := by
  induction l with
  | nil => rfl
  | cons a l ih =>
    rw [List.map_cons, List.cons_append, runLines, ih]
    rfl

/-- The lines before the conditions of the first field. -/
def reaPre (M : HexaData F64) : List (Py Text) :=
  (reaHead M.ndim ++ reaParams ++ reaSwitches ++
    ["  ***** MESH DATA *****  6 lines are X,Y,Z;X,Y,Z. Columns corners 1-4;5-8".toList, reaNel M.nel M.ndim]).map .ok ++
  (List.range M.nel).flatMap (reaGeoW M) ++
  [.ok "  ***** CURVED SIDE DATA *****".toList,
    .ok ("  ".toList ++ rjust 10 (decI M.ncurv) ++ " Curved sides follow IEDGE,IEL,CURVE(I),I=1,5, CCURVE".toList)] ++
  reaCurvesW M ++
  [.ok "  ***** BOUNDARY CONDITIONS *****".toList, .ok "  ***** FLUID BOUNDARY CONDITIONS *****".toList]

/-- The lines after the last condition. -/
def reaEnd (nbc : Nat) : List Text :=
  (if nbc < 2 then ["  ***** NO THERMAL BOUNDARY CONDITIONS *****".toList] else []) ++ reaTail

theorem reaLines_pre (M : HexaData F64) :
    reaLines M = reaPre M ++ ((List.range M.nbc).flatMap (reaField M) ++ (reaEnd M.nbc).map .ok) := by
  have : (reaEnd M.nbc).map .ok =
      (if M.nbc < 2 then [(.ok "  ***** NO THERMAL BOUNDARY CONDITIONS *****".toList : Py Text)] else []) ++ reaTail.map .ok := by
    unfold reaEnd
    rw [List.map_append]
    split <;> rfl
  rw [this, ← List.append_assoc, ← List.append_assoc]
  rfl

/-- The lines that can fail. -/
theorem reaLines_error (M : HexaData F64) (a : Py Text) (ha : a ∈ reaLines M) :
    (∃ t, a = .ok t) ∨ (∃ i < M.nel, a ∈ reaGeoW M i) ∨ a ∈ reaCurvesW M ∨ ∃ b < M.nbc, ∃ i < M.nel, ∃ f < 2 * M.ndim,
      a = if i < M.elem.length ∧ b < (M.el i).rows ∧ f < 6 then .ok (reaBC M.nel ((M.bc i b f).mark i f)) else .error .indexError := by
  rw [reaLines_pre] at ha
  rcases List.mem_append.mp ha with h | h
  · unfold reaPre at h
    rcases List.mem_append.mp h with h | h
    · rcases List.mem_append.mp h with h | h
      · rcases List.mem_append.mp h with h | h
        · rcases List.mem_append.mp h with h | h
          · obtain ⟨t, -, rfl⟩ := List.mem_map.mp h
            exact .inl ⟨t, rfl⟩
          · obtain ⟨i, hi, h⟩ := List.mem_flatMap.mp h
            exact .inr (.inl ⟨i, List.mem_range.mp hi, h⟩)
        · rcases List.mem_cons.mp h with rfl | h
          · exact .inl ⟨_, rfl⟩
          · exact .inl ⟨_, List.mem_singleton.mp h⟩
      · exact .inr (.inr (.inl h))
    · rcases List.mem_cons.mp h with rfl | h
      · exact .inl ⟨_, rfl⟩
      · exact .inl ⟨_, List.mem_singleton.mp h⟩
  · rcases List.mem_append.mp h with h | h
    · obtain ⟨b, hb, h⟩ := List.mem_flatMap.mp h
      unfold reaField at h
      rcases List.mem_append.mp h with h | h
      · obtain ⟨t, -, rfl⟩ := List.mem_map.mp h
        exact .inl ⟨t, rfl⟩
      · obtain ⟨⟨i, f⟩, ht, rfl⟩ := List.mem_map.mp h
        rw [mem_prod2, List.mem_range, List.mem_range] at ht
        exact .inr (.inr (.inr ⟨b, List.mem_range.mp hb, i, ht.1, f, ht.2, rfl⟩))
    · obtain ⟨t, -, rfl⟩ := List.mem_map.mp h
      exact .inl ⟨t, rfl⟩

theorem geo_mem (M : HexaData F64) (i : Nat) (hi : i < M.nel) (a : Py Text) (ha : a ∈ reaGeoW M i) : a ∈ reaLines M := by
  rw [reaLines_pre]
  unfold reaPre
  have h1 : a ∈ (List.range M.nel).flatMap (reaGeoW M) := List.mem_flatMap.mpr ⟨i, List.mem_range.mpr hi, ha⟩
  exact List.mem_append_left _ (List.mem_append_left _ (List.mem_append_left _ (List.mem_append_left _ (List.mem_append_right _ h1))))

theorem bc_mem (M : HexaData F64) (b i f : Nat) (hb : b < M.nbc) (hi : i < M.nel) (hf : f < 2 * M.ndim) :
    (if i < M.elem.length ∧ b < (M.el i).rows ∧ f < 6 then .ok (reaBC M.nel ((M.bc i b f).mark i f)) else .error .indexError : Py Text) ∈ reaLines M := by
  rw [reaLines_pre]
  refine List.mem_append_right _ (List.mem_append_left _ (List.mem_flatMap.mpr ⟨b, List.mem_range.mpr hb, ?_⟩))
  unfold reaField
  refine List.mem_append_right _ (List.mem_map.mpr ⟨(i, f), ?_, rfl⟩)
  rw [mem_prod2, List.mem_range, List.mem_range]
  exact ⟨hi, hf⟩

theorem corners_mem (nd lz : Nat) (h : nd = 2 ∨ nd = 3) (d : Nat) (hd : d < nd) : (d, 0) ∈ reaCorners nd lz := by
  rcases h with rfl | rfl
  · have : d = 0 ∨ d = 1 := by omega
    rcases this with rfl | rfl <;> simp [reaCorners]
  · have : d = 0 ∨ d = 1 ∨ d = 2 := by omega
    rcases this with rfl | rfl | rfl <;> simp [reaCorners]

theorem corners_lt (nd lz : Nat) (t : Nat × Nat) (h : t ∈ reaCorners nd lz) : t.1 < nd := by
  unfold reaCorners at h
  split at h
  · subst nd
    simp only [List.mem_cons, List.not_mem_nil, or_false] at h
    rcases h with rfl | rfl <;> decide
  · split at h
    · subst nd
      simp only [List.mem_cons, List.not_mem_nil, or_false] at h
      rcases h with rfl | rfl | rfl | rfl | rfl | rfl <;> dsimp only <;> omega
    · cases h

/-- Only `IndexError` is raised. -/
theorem reaLines_index (M : HexaData F64) (x : PyErr) (h : .error x ∈ reaLines M) : x = .indexError := by
  rcases reaLines_error M _ h with ⟨t, h⟩ | ⟨i, hi, h⟩ | h | ⟨b, hb, i, hi, f, hf, h⟩
  · cases h
  · unfold reaGeoW at h
    rcases List.mem_cons.mp h with h | h
    · cases h
    · obtain ⟨t, -, h⟩ := List.mem_map.mp h
      split at h
      · cases h
      · exact (Except.error.inj h).symm
  · unfold reaCurvesW at h
    obtain ⟨t, -, h⟩ := List.mem_map.mp h
    split at h
    · cases h
    · exact (Except.error.inj h).symm
  · split at h
    · cases h
    · exact Except.error.inj h

theorem reaLines_equipped (M : HexaData F64) (hd : M.ndim = 2 ∨ M.ndim = 3) : (runLines (reaLines M)).2 = none ↔ ReaEquipped M := by
  rw [runLines_none]
  constructor
  · intro h
    have hg : ∀ i < M.nel, ∀ d < M.ndim, i < M.elem.length ∧ d < (M.el i).pos.n ∧ 0 < (M.el i).pos.lz ∧ 0 < (M.el i).pos.ly ∧ 0 < (M.el i).pos.lx := by
      intro i hi d hd'
      by_contra hc
      obtain ⟨t, ht⟩ := h _ (geo_mem M i hi _ (List.mem_cons_of_mem _ (List.mem_map.mpr ⟨(d, 0), corners_mem _ _ hd d hd', rfl⟩)))
      dsimp only at ht
      rw [if_neg hc] at ht
      cases ht
    refine ⟨?_, fun i hi => ⟨?_, ?_⟩⟩
    · by_contra hc
      exact absurd (hg M.elem.length (by omega) 0 (by omega)).1 (lt_irrefl _)
    · have h1 := hg i hi (M.ndim - 1) (by omega)
      exact ⟨by omega, h1.2.2⟩
    · by_contra hc
      obtain ⟨t, ht⟩ := h _ (bc_mem M (M.nbc - 1) i 0 (by omega) hi (by omega))
      rw [if_neg (by omega)] at ht
      cases ht
  · rintro ⟨h1, h2⟩ a ha
    rcases reaLines_error M a ha with h | ⟨i, hi, h⟩ | h | ⟨b, hb, i, hi, f, hf, rfl⟩
    · exact h
    · unfold reaGeoW at h
      rcases List.mem_cons.mp h with h | h
      · exact ⟨_, h⟩
      · obtain ⟨t, ht, rfl⟩ := List.mem_map.mp h
        have h3 := corners_lt _ _ _ ht
        have h4 := (h2 i hi).1
        rw [if_pos ⟨by omega, by omega, h4.2⟩]
        exact ⟨_, rfl⟩
    · unfold reaCurvesW at h
      obtain ⟨⟨i, e⟩, ht, rfl⟩ := List.mem_map.mp h
      have h3 := (List.mem_filter.mp ht).1
      rw [mem_prod2, List.mem_range] at h3
      rw [if_pos (show i < M.elem.length by omega)]
      exact ⟨_, rfl⟩
    · have := (h2 i hi).2
      rw [if_pos ⟨by omega, by omega, by omega⟩]
      exact ⟨_, rfl⟩

theorem writerea_content (M : HexaData F64) : (writerea M).1 = (runLines (reaLines M)).1 := by
  unfold writerea
  generalize runLines (reaLines M) = r
  rfl

theorem writerea_status (M : HexaData F64) :
    ((writerea M).2 = .ok (reaMark M) ↔ (runLines (reaLines M)).2 = none) ∧ ∀ x, (writerea M).2 = .error x ↔ (runLines (reaLines M)).2 = some x := by
  unfold writerea
  generalize runLines (reaLines M) = r
  rcases r with ⟨c, _ | x⟩ <;> simp

/-- **C117**, the part that holds: `writerea` writes the complete file of a mesh in two or three dimensions exactly if lists and arrays hold
what is announced; otherwise `IndexError` is raised. Missing: in the second case an incomplete file is left behind, see `C117_false`. -/
theorem C117_partial (M : HexaData F64) (hd : M.ndim = 2 ∨ M.ndim = 3) :
    ((writerea M).2 = .ok (reaMark M) ↔ ReaEquipped M) ∧ (¬ ReaEquipped M → (writerea M).2 = .error .indexError) := by
  obtain ⟨e1, e2⟩ := writerea_status M
  have hm := reaLines_equipped M hd
  refine ⟨e1.trans hm, fun hne => ?_⟩
  rw [e2]
  rcases hx : (runLines (reaLines M)).2 with _ | x
  · exact absurd (hm.mp hx) hne
  · rw [reaLines_index M x (runLines_err _ _ hx)]

/-- **C117** is false in the code: the file is opened first. If for instance the elements have no rows of boundary conditions though
a field is announced, what is left is the file up to the title of the first field. -/
theorem C117_false (M : HexaData F64) (h : ReaMesh { M with nbc := 0 }) (hn : 0 < M.nel) (hb : 1 ≤ M.nbc) (hr : (M.el 0).rows = 0) :
    (writerea M).2 = .error .indexError ∧ (writerea M).1 ≠ [] ∧
      ∃ rest, "  ***** NO THERMAL BOUNDARY CONDITIONS *****\n".toList <+: rest ∧ (writerea { M with nbc := 0 }).1 = (writerea M).1 ++ rest := by
  have hne : ¬ ReaEquipped M := fun he => by
    have := (he.2 0 hn).2
    omega
  refine ⟨(C117_partial M h.dim).2 hne, ?_⟩
  have hd := h.dim
  have hd' : M.ndim = 2 ∨ M.ndim = 3 := hd
  have hA0 : reaLines { M with nbc := 0 } = reaPre M ++ (reaEnd 0).map .ok := reaLines_pre { M with nbc := 0 }
  have hok : ∀ a ∈ reaPre M, ∃ t, a = .ok t := by
    have := reaLines_ok _ h.sized
    rw [hA0] at this
    intro a ha
    have hm : a ∈ (reaText { M with nbc := 0 }).map .ok := this ▸ List.mem_append_left _ ha
    obtain ⟨t, -, rfl⟩ := List.mem_map.mp hm
    exact ⟨t, rfl⟩
  obtain ⟨T, hT⟩ : ∃ T : List Text, reaPre M = T.map .ok := by
    generalize reaPre M = A at hok
    clear * - hok
    induction A with
    | nil => exact ⟨[], rfl⟩
    | cons a A ih =>
      obtain ⟨t, rfl⟩ := hok a List.mem_cons_self
      obtain ⟨T, rfl⟩ := ih fun x hx => hok x (List.mem_cons_of_mem _ hx)
      exact ⟨t :: T, rfl⟩
  have hA1 : ∃ r, reaLines M = reaPre M ++ .error .indexError :: r := by
    obtain ⟨m, hm⟩ : ∃ m, M.nbc = m + 1 := ⟨M.nbc - 1, by omega⟩
    obtain ⟨k, hk⟩ : ∃ k, M.nel = k + 1 := ⟨M.nel - 1, by omega⟩
    obtain ⟨d, hd2⟩ : ∃ d, 2 * M.ndim = d + 1 := ⟨2 * M.ndim - 1, by omega⟩
    have hf : ∃ r, reaField M 0 = .error .indexError :: r := by
      unfold reaField prod2
      rw [hk, hd2, List.range_succ_eq_map, List.range_succ_eq_map, List.flatMap_cons, List.map_cons, List.cons_append, List.map_cons, if_neg (by
        dsimp only
        omega)]
      exact ⟨_, rfl⟩
    obtain ⟨r, hr'⟩ := hf
    rw [reaLines_pre, hm, List.range_succ_eq_map, List.flatMap_cons, hr']
    exact ⟨_, rfl⟩
  obtain ⟨r, hr'⟩ := hA1
  have e1 : (writerea M).1 = (T.map lineT).flatten := by
    rw [writerea_content, hr', hT, runLines_cut]
  have e2 : (writerea { M with nbc := 0 }).1 = (T.map lineT).flatten ++ ((reaEnd 0).map lineT).flatten := by
    rw [writerea_content, hA0, hT, ← List.map_append, runLines_ok, List.map_append, List.flatten_append]
  refine ⟨?_, _, ?_, by rw [e1]; exact e2⟩
  · rw [e1]
    intro hnil
    have hT0 : T = [] := by
      cases T with
      | nil => rfl
      | cons t T => simp [lineT] at hnil
    rw [hT0] at hT
    have hin : (.ok "  ***** BOUNDARY CONDITIONS *****".toList : Py Text) ∈ reaPre M := List.mem_append_right _ List.mem_cons_self
    rw [hT] at hin
    cases hin
  · unfold reaEnd
    rw [if_pos (by omega), List.cons_append, List.map_cons, List.flatten_cons]
    exact ⟨_, rfl⟩

/-! ### Example -/

/-- One square that announces a field of boundary conditions but has none. -/
def Samples.noRows : HexaData F64 := { (HexaData.new .little 2 1 ⟨2, 2, 1, true⟩ ⟨2, 0, 0, 0, 0⟩ 0 : HexaData F64) with nbc := 1 }

theorem Samples.noRows_ok : ReaMesh { Samples.noRows with nbc := 0 } where
  dim := .inl rfl
  len := rfl
  size := by decide
  shape := by
    intro i (hi : i < 1)
    interval_cases i
    exact ⟨by decide, by decide, by decide, by decide⟩
  coords := by
    intro i (hi : i < 1) d _ z _ y _ x _
    interval_cases i
    exact .inl rfl
  rows := fun _ _ => Nat.zero_le _
  curv := by
    intro i (hi : i < 1) e _
    interval_cases i
    exact ⟨Nat.zero_le _, fun c hc => by cases hc⟩
  names := fun _ _ b hb => absurd hb (Nat.not_lt_zero b)
  columns := fun _ _ b hb => absurd hb (Nat.not_lt_zero b)
  plain := fun _ _ _ b hb => absurd hb (Nat.not_lt_zero b)

example : (writerea Samples.noRows).2 = .error .indexError :=
  (C117_false Samples.noRows Samples.noRows_ok (by decide) (by decide) rfl).1

example : ReaEquipped { Samples.noRows with nbc := 0 } :=
  ⟨by decide, by
    intro i (hi : i < 1)
    interval_cases i
    exact ⟨⟨by decide, by decide, by decide, by decide⟩, by decide⟩⟩

end Pymech
