import Verif.Lemmas.Rea
import Verif.Lemmas.Basic
import Mathlib.Algebra.BigOperators.Group.List.Basic

/-!
# The text of a `.rea` file
-/

namespace Pymech
open Spec

/-- Title of field `b`. -/
def bcTitle (b : Nat) : Text :=
  if b = 0 then "  ***** FLUID BOUNDARY CONDITIONS *****".toList
  else if b = 1 then "  ***** THERMAL BOUNDARY CONDITIONS *****".toList
  else "  ***** PASSIVE SCALAR ".toList ++ rjust 4 (decI (b - 1 : Nat)) ++ " BOUNDARY CONDITIONS *****".toList

/-- Line of a boundary condition. -/
def bcT (M : HexaData F64) (b : Nat) (t : Nat × Nat) : Text := reaBC M.nel ((M.bc t.1 b t.2).mark t.1 t.2)

/-- Lines of field `b`. -/
def fieldT (M : HexaData F64) (b : Nat) : List Text :=
  bcTitle b :: (prod2 (List.range M.nel) (List.range (2 * M.ndim))).map (bcT M b)

/-- Lines of all fields. -/
def fieldsT (M : HexaData F64) : List Text := if M.nbc = 0 then [bcTitle 0] else (List.range M.nbc).flatMap (fieldT M)

/-- Lines of element `i`. -/
def geoT (M : HexaData F64) (i : Nat) : List Text := reaGeo M.ndim i (M.el i).pos

/-- Number of curved sides. -/
def curveTop (n : Nat) : List Text :=
  ["  ***** CURVED SIDE DATA *****".toList,
    "  ".toList ++ rjust 10 (decI n) ++ " Curved sides follow IEDGE,IEL,CURVE(I),I=1,5, CCURVE".toList]

/-- Line of a curved side. -/
def edgeT (M : HexaData F64) (t : Nat × Nat) : Text := reaCurve M.nel t.1 t.2 ((M.el t.1).curv t.2) ((M.el t.1).ccurv t.2)

/-- The lines before the first element. -/
def topT (nel nd : Nat) : List Text :=
  reaHead nd ++ (reaParams ++ (reaSwitches ++
    ["  ***** MESH DATA *****  6 lines are X,Y,Z;X,Y,Z. Columns corners 1-4;5-8".toList, reaNel nel nd]))

/-- The lines after the boundary conditions. -/
def restT (nbc : Nat) : List Text := (if nbc < 2 then ["  ***** NO THERMAL BOUNDARY CONDITIONS *****".toList] else []) ++ reaTail

/-- The title of the boundary conditions. -/
def bcTop : Text := "  ***** BOUNDARY CONDITIONS *****".toList

/-- All lines. -/
def reaText (M : HexaData F64) : List Text :=
  topT M.nel M.ndim ++ ((List.range M.nel).flatMap (geoT M) ++ (curveTop M.ncurv ++ ((reaEdges M).map (edgeT M) ++
    (bcTop :: (fieldsT M ++ restT M.nbc)))))

theorem flatMap_ok {α : Type} (l : List α) (f : α → List (Py Text)) (g : α → List Text) (h : ∀ a ∈ l, f a = (g a).map .ok) :
    l.flatMap f = (l.flatMap g).map .ok := by
  induction l with
  | nil => rfl
  | cons a l ih =>
    rw [List.flatMap_cons, List.flatMap_cons, List.map_append, h a List.mem_cons_self,
      ih fun x hx => h x (List.mem_cons_of_mem _ hx)]

/-- Lists and arrays hold what `writerea` asks for. -/
structure Sized (M : HexaData F64) : Prop where
  dim : M.ndim = 2 ∨ M.ndim = 3
  len : M.elem.length = M.nel
  shape : ∀ i < M.nel, M.ndim ≤ (M.el i).pos.n ∧ 0 < (M.el i).pos.lz ∧ 0 < (M.el i).pos.ly ∧ 0 < (M.el i).pos.lx
  rows : ∀ i < M.nel, M.nbc ≤ (M.el i).rows

theorem Spec.ReaMesh.sized {M : HexaData F64} (h : ReaMesh M) : Sized M := ⟨h.dim, h.len, h.shape, h.rows⟩

theorem reaGeoW_ok (M : HexaData F64) (h : Sized M) (i : Nat) (hi : i < M.nel) : reaGeoW M i = (geoT M i).map .ok := by
  have hs := h.shape i hi
  have hl : i < M.elem.length := by rw [h.len]; exact hi
  have key : ∀ d z, d < M.ndim → (if i < M.elem.length ∧ d < (M.el i).pos.n ∧ 0 < (M.el i).pos.lz ∧ 0 < (M.el i).pos.ly ∧ 0 < (M.el i).pos.lx
      then .ok (quadT (M.el i).pos d z) else .error .indexError : Py Text) = .ok (quadT (M.el i).pos d z) := fun d z hd =>
    if_pos ⟨hl, by omega, hs.2⟩
  unfold reaGeoW geoT reaGeo reaCorners
  rcases h.dim with hd | hd
  · simp only [hd, if_true, List.map_cons, List.map_nil]
    rw [key 0 0 (by omega), key 1 0 (by omega)]
  · simp only [hd, if_true, if_neg (show ¬ (3 = 2) by omega), List.map_cons, List.map_nil]
    rw [key 0 0 (by omega), key 1 0 (by omega), key 2 0 (by omega), key 0 _ (by omega), key 1 _ (by omega), key 2 _ (by omega)]

theorem reaCurvesW_ok (M : HexaData F64) (h : M.elem.length = M.nel) : reaCurvesW M = ((reaEdges M).map (edgeT M)).map .ok := by
  unfold reaCurvesW reaEdges
  have hl : ∀ t ∈ prod2 (List.range M.nel) (List.range 12), t.1 < M.elem.length := by
    rintro ⟨i, e⟩ ht
    rw [mem_prod2, List.mem_range] at ht
    rw [h]
    exact ht.1
  have hf : (prod2 (List.range M.nel) (List.range 12)).filter (fun t => decide (M.elem.length ≤ t.1 ∨ (M.el t.1).ccurv t.2 ≠ [])) =
      (prod2 (List.range M.nel) (List.range 12)).filter fun t => decide ((M.el t.1).ccurv t.2 ≠ []) := by
    apply List.filter_congr
    intro t ht
    have := hl t ht
    apply decide_eq_decide.mpr
    constructor
    · rintro (h1 | h1)
      · omega
      · exact h1
    · exact .inr
  rw [hf, List.map_map]
  apply List.map_congr_left
  intro t ht
  rw [if_pos (hl t (List.mem_filter.mp ht).1)]
  rfl

theorem reaField_ok (M : HexaData F64) (h : Sized M) (b : Nat) (hb : b < M.nbc) :
    reaField M b = (reaTitle b ++ (prod2 (List.range M.nel) (List.range (2 * M.ndim))).map (bcT M b)).map .ok := by
  unfold reaField
  rw [List.map_append, List.map_map]
  congr 1
  apply List.map_congr_left
  rintro ⟨i, f⟩ ht
  rw [mem_prod2, List.mem_range, List.mem_range] at ht
  dsimp only at ht ⊢
  have hr := h.rows i ht.1
  have hd := h.dim
  rw [if_pos ⟨by rw [h.len]; exact ht.1, by omega, by omega⟩]
  rfl

theorem reaTitle_succ (b : Nat) : reaTitle (b + 1) = [bcTitle (b + 1)] := by
  unfold reaTitle bcTitle
  rw [if_neg (Nat.succ_ne_zero b), if_neg (Nat.succ_ne_zero b)]
  by_cases h : b + 1 = 1
  · rw [if_pos h, if_pos h]
  · rw [if_neg h, if_neg h]

theorem fields_ok (M : HexaData F64) (h : Sized M) :
    [.ok (bcTitle 0)] ++ (List.range M.nbc).flatMap (reaField M) = (fieldsT M).map .ok := by
  have hf := flatMap_ok (List.range M.nbc) (reaField M) _ fun b hb => reaField_ok M h b (List.mem_range.mp hb)
  rw [hf]
  unfold fieldsT
  cases hn : M.nbc with
  | zero => rfl
  | succ m =>
    rw [if_neg (by omega), List.range_succ_eq_map, List.flatMap_cons, List.flatMap_cons]
    have e : ∀ b ∈ (List.range m).map Nat.succ, reaTitle b ++ (prod2 (List.range M.nel) (List.range (2 * M.ndim))).map (bcT M b) = fieldT M b := by
      intro b hb
      obtain ⟨k, -, rfl⟩ := List.mem_map.mp hb
      rw [Nat.succ_eq_add_one, reaTitle_succ]
      rfl
    have e2 : ∀ l : List Nat, (∀ b ∈ l, reaTitle b ++ (prod2 (List.range M.nel) (List.range (2 * M.ndim))).map (bcT M b) = fieldT M b) →
        (l.flatMap fun b => reaTitle b ++ (prod2 (List.range M.nel) (List.range (2 * M.ndim))).map (bcT M b)) = l.flatMap (fieldT M) := by
      intro l hl
      induction l with
      | nil => rfl
      | cons a l ih => rw [List.flatMap_cons, List.flatMap_cons, hl a List.mem_cons_self, ih fun x hx => hl x (List.mem_cons_of_mem _ hx)]
    rw [e2 _ e]
    rfl

theorem reaLines_ok (M : HexaData F64) (h : Sized M) : reaLines M = (reaText M).map .ok := by
  have hg := flatMap_ok (List.range M.nel) (reaGeoW M) (geoT M) fun i hi => reaGeoW_ok M h i (List.mem_range.mp hi)
  have hf := fields_ok M h
  have hr : (if M.nbc < 2 then [(.ok "  ***** NO THERMAL BOUNDARY CONDITIONS *****".toList : Py Text)] else []) ++ reaTail.map .ok =
      (restT M.nbc).map .ok := by
    unfold restT
    rw [List.map_append]
    split <;> rfl
  have ht : (reaHead M.ndim ++ reaParams ++ reaSwitches ++
      ["  ***** MESH DATA *****  6 lines are X,Y,Z;X,Y,Z. Columns corners 1-4;5-8".toList, reaNel M.nel M.ndim]) = topT M.nel M.ndim := by
    unfold topT
    rw [List.append_assoc, List.append_assoc]
  unfold reaLines reaText
  rw [ht, hg, reaCurvesW_ok M h.len, List.append_assoc _ _ (reaTail.map _), hr, List.map_append, List.map_append, List.map_append, List.map_append,
    List.map_cons, List.map_append, ← hf]
  simp only [List.append_assoc, List.cons_append, List.nil_append]
  rfl

/-- The file and the mesh after writing. -/
theorem writerea_ok (M : HexaData F64) (h : ReaMesh M) : writerea M = (((reaText M).map lineT).flatten, .ok (reaMark M)) := by
  unfold writerea
  rw [reaLines_ok M h.sized, runLines_ok]

/-! ### Every line is one line, and the titles are where they should be -/

/-- No newline inside, and not even a part of the line is a title. -/
def Dull (l : Text) : Prop := '\n' ∉ l ∧ ∀ q ∈ l.inits, isBcHead q = false

theorem Dull.head {l : Text} (h : Dull l) : isBcHead l = false := h.2 l ((List.mem_inits _ _).mpr (List.prefix_refl _))

instance (l : Text) : Decidable (Dull l) := inferInstanceAs (Decidable (_ ∧ _))

theorem dull_params : ∀ l ∈ reaParams, Dull l := by decide +kernel
theorem dull_switches : ∀ l ∈ reaSwitches, Dull l := by decide +kernel
theorem dull_rest (nbc : Nat) : ∀ l ∈ restT nbc, Dull l := by
  have h1 : ∀ l ∈ reaTail, Dull l := by decide +kernel
  have h2 : Dull "  ***** NO THERMAL BOUNDARY CONDITIONS *****".toList := by decide +kernel
  intro l hl
  unfold restT at hl
  rcases List.mem_append.mp hl with h | h
  · split at h
    · rw [List.mem_singleton] at h
      exact h ▸ h2
    · simp at h
  · exact h1 l h

theorem dull_plain (a w b : Text) (hw : Free w) (ha : 'B' ∉ a ∧ '\n' ∉ a) (hb : 'B' ∉ b ∧ '\n' ∉ b) : Dull (a ++ w ++ b) := by
  refine plain_line _ ?_ ?_
  · rw [List.mem_append, List.mem_append]
    rintro ((h | h) | h)
    · exact ha.1 h
    · exact hw.noB h
    · exact hb.1 h
  · rw [List.mem_append, List.mem_append]
    rintro ((h | h) | h)
    · exact ha.2 h
    · exact hw.noNl h
    · exact hb.2 h

theorem dull_top (nel nd : Nat) : ∀ l ∈ topT nel nd, Dull l := by
  intro l hl
  unfold topT at hl
  rw [List.mem_append, List.mem_append, List.mem_append] at hl
  rcases hl with h | h | h | h
  · unfold reaHead at h
    simp only [List.mem_cons, List.not_mem_nil, or_false] at h
    rcases h with rfl | rfl | rfl | rfl
    · decide +kernel
    · decide +kernel
    · exact dull_plain _ _ _ (free_decI _) (by decide) (by decide)
    · decide +kernel
  · exact dull_params l h
  · exact dull_switches l h
  · simp only [List.mem_cons, List.not_mem_nil, or_false] at h
    rcases h with rfl | rfl
    · decide +kernel
    · unfold reaNel
      rw [show "  ".toList ++ rjust 10 (decI nel) ++ [' '] ++ decI nd ++ [' '] ++ rjust 10 (decI nel) ++ " NEL,NDIM,NELV".toList =
        "  ".toList ++ (rjust 10 (decI nel) ++ [' '] ++ decI nd ++ [' '] ++ rjust 10 (decI nel)) ++ " NEL,NDIM,NELV".toList by
          simp only [List.append_assoc]]
      exact dull_plain _ _ _ (free_append (free_append (free_append (free_append (free_rjust _ (free_decI _)) (by unfold Free; decide)) (free_decI _))
        (by unfold Free; decide)) (free_rjust _ (free_decI _))) (by decide) (by decide)

theorem dull_free {l : Text} (h : Free l) : Dull l := plain_line l h.noB h.noNl

theorem free_quad (a : Arr F64) (d z : Nat) : Free (quadT a d z) :=
  free_append (free_append (free_append (free_e14 _) (free_e14 _)) (free_e14 _)) (free_e14 _)

theorem dull_geo (nd i : Nat) (a : Arr F64) : ∀ l ∈ reaGeo nd i a, Dull l := by
  intro l hl
  unfold reaGeo at hl
  rcases List.mem_cons.mp hl with rfl | h
  · exact dull_plain _ _ _ (free_rjust _ (free_decI _)) (by decide) (by decide)
  · split at h
    · simp only [List.mem_cons, List.not_mem_nil, or_false] at h
      rcases h with rfl | rfl <;> exact dull_free (free_quad _ _ _)
    · split at h
      · simp only [List.mem_cons, List.not_mem_nil, or_false] at h
        rcases h with rfl | rfl | rfl | rfl | rfl | rfl <;> exact dull_free (free_quad _ _ _)
      · simp at h

theorem dull_curveTop (n : Nat) : ∀ l ∈ curveTop n, Dull l := by
  intro l hl
  unfold curveTop at hl
  simp only [List.mem_cons, List.not_mem_nil, or_false] at hl
  rcases hl with rfl | rfl
  · decide +kernel
  · exact dull_plain _ _ _ (free_rjust _ (free_decI _)) (by decide) (by decide)

theorem dull_curve (nel i k : Nat) (p : Nat → F64) (t : Name) (ht : Label 3 t) : Dull (reaCurve nel i k p t) := by
  unfold reaCurve rjust
  have hn : '\n' ∉ t := by
    intro h
    have := (ht.2 _ h).2.1
    revert this
    decide
  rw [← List.append_assoc _ (List.replicate _ _) t, ← List.append_nil (_ ++ t)]
  have hd : Free (if nel < 10 ^ 3 then rjust 3 (decI (k + 1 : Nat)) ++ rjust 3 (decI (i + 1 : Nat))
    else if nel < 10 ^ 6 then rjust 2 (decI (k + 1 : Nat)) ++ rjust 6 (decI (i + 1 : Nat))
    else rjust 2 (decI (k + 1 : Nat)) ++ rjust 10 (decI (i + 1 : Nat))) := by
    split
    · exact free_append (free_rjust _ (free_decI _)) (free_rjust _ (free_decI _))
    · split <;> exact free_append (free_rjust _ (free_decI _)) (free_rjust _ (free_decI _))
  refine data_line _ t [] ?_ (by unfold Free; simp) ht.1 hn
  exact free_append (free_append (free_append (free_append (free_append (free_append hd (free_e14 _)) (free_e14 _)) (free_e14 _)) (free_e14 _))
    (free_e14 _)) (free_blanks _)

theorem dull_bc (nel : Nat) (r : BC F64) (ht : Label 2 r.typ) : Dull (reaBC nel r) := by
  unfold reaBC ljust
  have hn : '\n' ∉ r.typ := by
    intro h
    have := (ht.2 _ h).2.1
    revert this
    decide
  rw [← List.append_assoc [' '], List.append_assoc, List.append_assoc]
  refine data_line [' '] r.typ _ (by unfold Free; decide) ?_ (by have := ht.1; omega) hn
  refine free_append (free_blanks _) (free_append (by unfold Free; decide) ?_)
  split
  · exact free_append (free_append (free_append (free_append (free_append (free_append (free_rjust _ (free_decI _)) (free_rjust _ (free_decI _)))
      (free_e14 _)) (free_e14 _)) (free_e14 _)) (free_e14 _)) (free_e14 _)
  · split
    · exact free_append (free_append (free_append (free_append (free_append (free_rjust _ (free_decI _))
        (free_e14 _)) (free_e14 _)) (free_e14 _)) (free_e14 _)) (free_e14 _)
    · exact free_append (free_append (free_append (free_append (free_append (free_append (free_rjust _ (free_decI _)) (free_decI _))
        (free_e18 _)) (free_e18 _)) (free_e18 _)) (free_e18 _)) (free_e18 _)

theorem title_line (b : Nat) : '\n' ∉ bcTitle b ∧ isBcHead (bcTitle b) = true := by
  unfold bcTitle
  split
  · decide +kernel
  · split
    · decide +kernel
    · constructor
      · rw [List.mem_append, List.mem_append]
        rintro ((h | h) | h)
        · revert h; decide
        · exact (free_rjust 4 (free_decI _)).noNl h
        · revert h; decide
      · unfold isBcHead
        have e : "  ***** PASSIVE SCALAR ".toList ++ rjust 4 (decI (b - 1 : Nat)) ++ " BOUNDARY CONDITIONS *****".toList =
            "  ***** PASSIVE SCALAR".toList ++ ' ' :: (rjust 4 (decI (b - 1 : Nat)) ++ ' ' :: "BOUNDARY CONDITIONS *****".toList) := by
          rw [show "  ***** PASSIVE SCALAR ".toList = "  ***** PASSIVE SCALAR".toList ++ [' '] by decide,
            show " BOUNDARY CONDITIONS *****".toList = ' ' :: "BOUNDARY CONDITIONS *****".toList by decide]
          simp only [List.append_assoc, List.nil_append, List.cons_append]
        have hs : splitU ("  ***** PASSIVE SCALAR ".toList ++ rjust 4 (decI (b - 1 : Nat)) ++ " BOUNDARY CONDITIONS *****".toList) =
            ["*****".toList, "PASSIVE".toList, "SCALAR".toList, decI (b - 1 : Nat), "BOUNDARY".toList, "CONDITIONS".toList, "*****".toList] := by
          rw [e, splitU_append _ _ (by decide), splitU_append _ _ (by decide), splitU_rjust _ _ (noBlank_decI _) (decI_ne_nil _),
            show splitU "  ***** PASSIVE SCALAR".toList = ["*****".toList, "PASSIVE".toList, "SCALAR".toList] by decide +kernel,
            show splitU "BOUNDARY CONDITIONS *****".toList = ["BOUNDARY".toList, "CONDITIONS".toList, "*****".toList] by decide +kernel]
          rfl
        rw [hs]
        have hno : "NO".toList ≠ decI (b - 1 : Nat) := by
          intro h
          have : 'O' ∈ decI (b - 1 : Nat) := h ▸ (by decide)
          exact free_decI _ _ this (by decide)
        rw [Bool.and_eq_true, decide_eq_true_iff, decide_eq_true_iff]
        constructor
        · simp
        · simp only [List.mem_cons, not_or]
          exact ⟨by decide, by decide, by decide, hno, by decide, by decide, by decide, by simp⟩

theorem mark_label {i f : Nat} {r : BC F64} (h : Label 2 r.typ) : Label 2 (r.mark i f).typ := by
  unfold BC.mark
  split
  · exact (by decide : Label 2 nE)
  · exact h

theorem mem_reaEdges (M : HexaData F64) (i k : Nat) : (i, k) ∈ reaEdges M ↔ i < M.nel ∧ k < 12 ∧ (M.el i).ccurv k ≠ [] := by
  unfold reaEdges
  rw [List.mem_filter, mem_prod2]
  simp [and_assoc]

/-- No line of the text contains a newline. -/
theorem reaText_lines' (M : HexaData F64) (hcurv : ∀ i < M.nel, ∀ e < 12, Label 3 ((M.el i).ccurv e))
    (hnames : ∀ i < M.nel, ∀ b < M.nbc, ∀ f < 2 * M.ndim, Label 2 (M.bc i b f).typ) : ∀ l ∈ reaText M, '\n' ∉ l := by
  intro l hl
  unfold reaText at hl
  simp only [List.mem_append, List.mem_cons] at hl
  rcases hl with h1 | h1 | h1 | h1 | h1 | h1 | h1
  · exact (dull_top _ _ l h1).1
  · obtain ⟨i, -, h2⟩ := List.mem_flatMap.mp h1
    exact (dull_geo _ _ _ l h2).1
  · exact (dull_curveTop _ l h1).1
  · obtain ⟨⟨i, k⟩, h2, rfl⟩ := List.mem_map.mp h1
    obtain ⟨a1, a2, a3⟩ := (mem_reaEdges M i k).mp h2
    exact (dull_curve _ _ _ _ _ (hcurv i a1 k a2)).1
  · rw [h1]; decide +kernel
  · unfold fieldsT at h1
    split at h1
    · rw [List.mem_singleton] at h1
      exact h1 ▸ (title_line 0).1
    · obtain ⟨b, hb, h2⟩ := List.mem_flatMap.mp h1
      rcases List.mem_cons.mp h2 with rfl | h3
      · exact (title_line b).1
      · obtain ⟨⟨i, f⟩, h4, rfl⟩ := List.mem_map.mp h3
        rw [mem_prod2, List.mem_range, List.mem_range] at h4
        exact (dull_bc _ _ (mark_label (hnames i h4.1 b (List.mem_range.mp hb) f h4.2))).1
  · exact (dull_rest _ l h1).1

theorem reaText_lines (M : HexaData F64) (h : ReaMesh M) : ∀ l ∈ reaText M, '\n' ∉ l := reaText_lines' M h.curv h.names

theorem count_dull (l : List Text) (h : ∀ t ∈ l, Dull t) : (l.map lineT).countP isBcHead = 0 := by
  rw [List.countP_eq_zero]
  intro t ht
  obtain ⟨s, hs, rfl⟩ := List.mem_map.mp ht
  rw [isBcHead_line, (h s hs).head]
  decide

/-- Number of titles. -/
theorem reaText_heads (M : HexaData F64) (h : ReaMesh M) : (((reaText M).map lineT).filter isBcHead).length = max 1 M.nbc := by
  rw [← List.countP_eq_length_filter]
  unfold reaText
  simp only [List.map_append, List.countP_append, List.map_cons, List.countP_cons]
  rw [count_dull _ (dull_top _ _), count_dull _ (dull_curveTop _), count_dull _ (dull_rest _), count_dull _ ?geo, count_dull _ ?edges]
  · have h0 : isBcHead (lineT bcTop) = false := by decide +kernel
    rw [h0]
    simp only [Bool.false_eq_true, if_false, Nat.add_zero, Nat.zero_add]
    unfold fieldsT
    have ht : ∀ b, isBcHead (lineT (bcTitle b)) = true := fun b => by rw [isBcHead_line]; exact (title_line b).2
    split
    · rename_i hn
      rw [hn, List.map_singleton, List.countP_singleton, ht]
      rfl
    · rename_i hn
      rw [List.map_flatMap, List.countP_flatMap]
      have : ∀ l : List Nat, (∀ b ∈ l, b < M.nbc) → (l.map (List.countP isBcHead ∘ fun b => (fieldT M b).map lineT)).sum = l.length := by
        intro l hl
        induction l with
        | nil => rfl
        | cons b l ih =>
          rw [List.map_cons, List.sum_cons, ih fun x hx => hl x (List.mem_cons_of_mem _ hx), Function.comp, fieldT, List.map_cons,
            List.countP_cons, ht, count_dull, List.length_cons]
          · simp only [if_true]; omega
          · intro t hm
            obtain ⟨⟨i, f⟩, h4, rfl⟩ := List.mem_map.mp hm
            rw [mem_prod2, List.mem_range, List.mem_range] at h4
            exact dull_bc _ _ (mark_label (h.names i h4.1 b (hl b List.mem_cons_self) f h4.2))
      rw [this _ fun b hb => List.mem_range.mp hb, List.length_range]
      omega
  case edges =>
    intro t hm
    obtain ⟨⟨i, k⟩, h2, rfl⟩ := List.mem_map.mp hm
    obtain ⟨a1, a2, a3⟩ := (mem_reaEdges M i k).mp h2
    exact dull_curve _ _ _ _ _ (h.curv i a1 k a2)
  case geo =>
    intro t hm
    obtain ⟨i, -, h2⟩ := List.mem_flatMap.mp hm
    exact dull_geo _ _ _ t h2

end Pymech
