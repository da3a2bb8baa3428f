import Verif.Suite.Open
import Verif.Props.Dataset
import Mathlib.Data.Set.Card

/-! # C103: which fields `open_dataset` accepts, and how it labels the data -/

set_option autoImplicit false

namespace Pymech

namespace Spec

/-- No two entries disagree about the size of a dimension. -/
def Agree (l : List (Name × Nat)) : Prop := ∀ p ∈ l, ∀ q ∈ l, p.1 = q.1 → p.2 = q.2

/-- An element as read from a file: three components of position and velocity, and all arrays with `lz × ly × lx` points. -/
structure Sized {F : Type} (el : Elem F) (lz ly lx : Nat) : Prop where
  npos : el.pos.n = 3
  nvel : el.vel.n = 3
  shape : ∀ a ∈ [el.pos, el.vel, el.pres, el.temp, el.scal], a.lz = lz ∧ a.ly = ly ∧ a.lx = lx

/-- The rounded values of a component of the positions. -/
def coordValues {F : Type} (rnd : F → F) (el : Elem F) (lz ly lx d : Nat) : Set F := {v | ∃ k < lz, ∃ j < ly, ∃ i < lx, rnd (el.pos.dat d k j i) = v}

/-- As many values of x, y and z, after rounding, as there are points along the axes. -/
def AsMany {F : Type} (rnd : F → F) (el : Elem F) (lz ly lx : Nat) : Prop :=
  (coordValues rnd el lz ly lx 0).ncard = lx ∧ (coordValues rnd el lz ly lx 1).ncard = ly ∧ (coordValues rnd el lz ly lx 2).ncard = lz

/-- The label of position `i` along an axis: the entry of the coordinate variable with this name. -/
def label {F : Type} (v : List (Name × DataVar F)) (name : Name) (i : Nat) : Option F :=
  match v.find? (fun e => e.1 == name) with
  | some (_, .coord l) => l[i]?
  | _ => none

/-- The labels of a position are the coordinates of the point stored there, up to rounding. -/
def Labelled {F : Type} (rnd : F → F) (el : Elem F) (lz ly lx : Nat) (v : List (Name × DataVar F)) : Prop :=
  ∀ k < lz, ∀ j < ly, ∀ i < lx,
    (label v ['x'] i).map rnd = some (rnd (el.pos.dat 0 k j i)) ∧ (label v ['y'] j).map rnd = some (rnd (el.pos.dat 1 k j i)) ∧
    (label v ['z'] k).map rnd = some (rnd (el.pos.dat 2 k j i))

/-- The points are those of a grid (up to rounding): x only depends on the first index and grows with it, and so on. -/
def AxisGrid {F : Type} [LinearOrder F] (rnd : F → F) (el : Elem F) (lz ly lx : Nat) : Prop :=
  ∃ xs ys zs : Nat → F,
    (∀ i j, i < j → j < lx → rnd (xs i) < rnd (xs j)) ∧ (∀ i j, i < j → j < ly → rnd (ys i) < rnd (ys j)) ∧
    (∀ i j, i < j → j < lz → rnd (zs i) < rnd (zs j)) ∧
    ∀ k < lz, ∀ j < ly, ∀ i < lx, rnd (el.pos.dat 0 k j i) = rnd (xs i) ∧ rnd (el.pos.dat 1 k j i) = rnd (ys j) ∧ rnd (el.pos.dat 2 k j i) = rnd (zs k)

end Spec

open Spec

theorem calcDims_spec (l : List (Name × Nat)) : ∀ d, Agree d →
    (Agree (d ++ l) → ∃ r, calcDims d l = .ok r) ∧ (¬ Agree (d ++ l) → calcDims d l = .error .valueError) := by
  induction l with
  | nil =>
    intro d hd
    rw [List.append_nil]
    exact ⟨fun _ => ⟨d, rfl⟩, fun h => absurd hd h⟩
  | cons p l ih =>
    intro d hd
    unfold calcDims
    cases hf : d.find? (fun q => q.1 == p.1) with
    | none =>
      dsimp only
      have hno : ∀ q ∈ d, q.1 ≠ p.1 := by
        intro q hq
        simpa using List.find?_eq_none.1 hf q hq
      have hd' : Agree (d ++ [p]) := by
        intro a ha b hb hab
        rw [List.mem_append, List.mem_singleton] at ha hb
        rcases ha with ha | rfl <;> rcases hb with hb | rfl
        · exact hd a ha b hb hab
        · exact absurd hab (hno a ha)
        · exact absurd hab.symm (hno b hb)
        · rfl
      have := ih (d ++ [p]) hd'
      rwa [List.append_assoc, List.singleton_append] at this
    | some q =>
      dsimp only
      have hq : q ∈ d := List.mem_of_find?_eq_some hf
      have hn : q.1 = p.1 := by simpa using List.find?_some hf
      split_ifs with hs
      · have e : Agree (d ++ p :: l) ↔ Agree (d ++ l) := by
          constructor
          · intro h a ha b hb
            refine h a ?_ b ?_
            · rw [List.mem_append] at ha ⊢; exact ha.imp id (List.mem_cons_of_mem _)
            · rw [List.mem_append] at hb ⊢; exact hb.imp id (List.mem_cons_of_mem _)
          · intro h
            have key : ∀ a ∈ d ++ p :: l, ∃ a' ∈ d ++ l, a'.1 = a.1 ∧ a'.2 = a.2 := by
              intro a ha
              rw [List.mem_append, List.mem_cons] at ha
              rcases ha with ha | rfl | ha
              · exact ⟨a, List.mem_append_left _ ha, rfl, rfl⟩
              · exact ⟨q, List.mem_append_left _ hq, hn, hs⟩
              · exact ⟨a, List.mem_append_right _ ha, rfl, rfl⟩
            intro a ha b hb hab
            obtain ⟨a', h1, h2, h3⟩ := key a ha
            obtain ⟨b', g1, g2, g3⟩ := key b hb
            rw [← h3, ← g3]
            exact h a' h1 b' g1 (by rw [h2, g2, hab])
        rw [e]
        exact ih d hd
      · refine ⟨fun h => absurd (h q (List.mem_append_left _ hq) p (by simp) hn) hs, fun _ => rfl⟩

section
variable {F : Type} [LinearOrder F]

/-- There is one coordinate per rounded value. -/
theorem length_meshgridToDim (rnd : F → F) (hr : Monotone rnd) (lz ly lx : Nat) (mesh : Nat → Nat → Nat → F) :
    (meshgridToDim rnd lz ly lx mesh).length = {v | ∃ k < lz, ∃ j < ly, ∃ i < lx, rnd (mesh k j i) = v}.ncard := by
  obtain ⟨h1, h2, -, h4⟩ := C79 rnd hr lz ly lx mesh
  have hnd : ((meshgridToDim rnd lz ly lx mesh).map rnd).Nodup := h2.imp fun h => h.ne
  have e : {v | ∃ k < lz, ∃ j < ly, ∃ i < lx, rnd (mesh k j i) = v} = (((meshgridToDim rnd lz ly lx mesh).map rnd).toFinset : Set F) := by
    ext v
    simp only [Set.mem_ofPred_eq, List.coe_toFinset]
    constructor
    · rintro ⟨k, hk, j, hj, i, hi, rfl⟩
      exact h4 k hk j hj i hi
    · intro hv
      obtain ⟨w, hw, rfl⟩ := List.mem_map.1 hv
      obtain ⟨k, hk, j, hj, i, hi, rfl⟩ := h1 w hw
      exact ⟨k, hk, j, hj, i, hi, rfl⟩
  rw [e, Set.ncard_coe_finset, List.toFinset_card_of_nodup hnd, List.length_map]

/-- Sizes of the dimensions of an element. -/
theorem agree_variables (rnd : F → F) (hr : Monotone rnd) (el : Elem F) (lz ly lx : Nat) (h : Sized el lz ly lx) :
    Agree ((variablesOf rnd el).flatMap fun e => e.2.dims e.1) ↔ AsMany rnd el lz ly lx := by
  obtain ⟨-, -, hs⟩ := h
  have s0 := hs el.pos (by simp)
  have cnt : ∀ d, (meshgridToDim rnd el.pos.lz el.pos.ly el.pos.lx (el.pos.dat d)).length = (coordValues rnd el lz ly lx d).ncard := by
    intro d
    rw [length_meshgridToDim rnd hr, s0.1, s0.2.1, s0.2.2]
    rfl
  have first : ∀ e, e ∈ [("x".toList, dimOf rnd el.pos 0), ("y".toList, dimOf rnd el.pos 1), ("z".toList, dimOf rnd el.pos 2),
      ("xmesh".toList, varOf el.pos 0), ("ymesh".toList, varOf el.pos 1), ("zmesh".toList, varOf el.pos 2),
      ("ux".toList, varOf el.vel 0), ("uy".toList, varOf el.vel 1), ("uz".toList, varOf el.vel 2)] → e ∈ variablesOf rnd el := fun e he =>
    List.mem_append_left _ (List.mem_append_left _ (List.mem_append_left _ he))
  constructor
  · intro h
    have m : ∀ d n, (n, dimOf rnd el.pos d) ∈ variablesOf rnd el →
        (n, (coordValues rnd el lz ly lx d).ncard) ∈ (variablesOf rnd el).flatMap fun e => e.2.dims e.1 := by
      intro d n hm
      refine List.mem_flatMap.2 ⟨_, hm, ?_⟩
      change _ ∈ [(n, (meshgridToDim rnd el.pos.lz el.pos.ly el.pos.lx (el.pos.dat d)).length)]
      rw [cnt]
      exact List.mem_singleton_self _
    have f : ∀ p, p ∈ [((['z'] : Name), lz), (['y'], ly), (['x'], lx)] → p ∈ (variablesOf rnd el).flatMap fun e => e.2.dims e.1 := by
      intro p hp
      refine List.mem_flatMap.2 ⟨("xmesh".toList, varOf el.pos 0), first _ (.tail _ (.tail _ (.tail _ (.head _)))), ?_⟩
      change p ∈ [((['z'] : Name), el.pos.lz), (['y'], el.pos.ly), (['x'], el.pos.lx)]
      rw [s0.1, s0.2.1, s0.2.2]
      exact hp
    exact ⟨h _ (m 0 "x".toList (first _ (.head _))) _ (f (['x'], lx) (.tail _ (.tail _ (.head _)))) rfl,
      h _ (m 1 "y".toList (first _ (.tail _ (.head _)))) _ (f (['y'], ly) (.tail _ (.head _))) rfl,
      h _ (m 2 "z".toList (first _ (.tail _ (.tail _ (.head _))))) _ (f (['z'], lz) (.head _)) rfl⟩
  · rintro ⟨hx, hy, hz⟩
    have key : ∀ p ∈ (variablesOf rnd el).flatMap fun e => e.2.dims e.1, p = (['z'], lz) ∨ p = (['y'], ly) ∨ p = (['x'], lx) := by
      intro p hp
      obtain ⟨e, he, hp⟩ := List.mem_flatMap.1 hp
      have fld : ∀ a ∈ [el.pos, el.vel, el.pres, el.temp, el.scal], ∀ d n, p ∈ (varOf a d).dims n → p = (['z'], lz) ∨ p = (['y'], ly) ∨ p = (['x'], lx) := by
        intro a ha d n hp
        unfold varOf DataVar.dims at hp
        obtain ⟨s1, s2, s3⟩ := hs a ha
        rw [s1, s2, s3] at hp
        simpa using hp
      have dim : ∀ d n, p ∈ (dimOf rnd el.pos d).dims n → p = (n, (coordValues rnd el lz ly lx d).ncard) := by
        intro d n hp
        change p ∈ [(n, (meshgridToDim rnd el.pos.lz el.pos.ly el.pos.lx (el.pos.dat d)).length)] at hp
        rw [cnt] at hp
        exact List.mem_singleton.1 hp
      unfold variablesOf at he
      rw [List.mem_append, List.mem_append, List.mem_append] at he
      rcases he with ((he | he) | he) | he
      · simp only [List.mem_cons, List.not_mem_nil, or_false] at he
        rcases he with rfl | rfl | rfl | rfl | rfl | rfl | rfl | rfl | rfl
        · right; right; rw [dim 0 _ hp, hx]; rfl
        · right; left; rw [dim 1 _ hp, hy]; rfl
        · left; rw [dim 2 _ hp, hz]; rfl
        · exact fld el.pos (by simp) _ _ hp
        · exact fld el.pos (by simp) _ _ hp
        · exact fld el.pos (by simp) _ _ hp
        · exact fld el.vel (by simp) _ _ hp
        · exact fld el.vel (by simp) _ _ hp
        · exact fld el.vel (by simp) _ _ hp
      · split_ifs at he
        · rw [List.mem_singleton] at he
          subst he
          exact fld el.pres (by simp) _ _ hp
        · cases he
      · split_ifs at he
        · rw [List.mem_singleton] at he
          subst he
          exact fld el.temp (by simp) _ _ hp
        · cases he
      · split_ifs at he
        · obtain ⟨i, -, rfl⟩ := List.mem_map.1 he
          exact fld el.scal (by simp) _ _ hp
        · cases he
    intro p hp q hq hpq
    rcases key p hp with rfl | rfl | rfl <;> rcases key q hq with rfl | rfl | rfl <;> first | rfl | (exact absurd hpq (by simp))

/-- The data set of an element. -/
theorem elemDataset_spec (rnd : F → F) (hr : Monotone rnd) (el : Elem F) (lz ly lx : Nat) (h : Sized el lz ly lx) :
    (AsMany rnd el lz ly lx → elemDataset rnd el = .ok (variablesOf rnd el)) ∧
    (¬ AsMany rnd el lz ly lx → elemDataset rnd el = .error .valueError) := by
  have hc := calcDims_spec ((variablesOf rnd el).flatMap fun e => e.2.dims e.1) [] (fun p hp => absurd hp (by simp))
  rw [List.nil_append, agree_variables rnd hr el lz ly lx h] at hc
  unfold elemDataset
  rw [(C80 rnd el h.npos h.nvel).1]
  constructor
  · intro hcn
    obtain ⟨r, hr⟩ := hc.1 hcn
    change (calcDims _ _ >>= fun _ => pure _) = _
    rw [hr]
    rfl
  · intro hcn
    change (calcDims _ _ >>= fun _ => pure _) = _
    rw [hc.2 hcn]
    rfl

/-- **C103**: a field is opened exactly if the name is accepted (C78) and every element has as many different (rounded) values of x, y and z as
points along the axes; the data sets are the variables of the elements (C80). All others are refused with `NotImplementedError`. -/
theorem C103_accepts (digit : Char → Bool) (rnd : F → F) (hr : Monotone rnd) (path : List Char) (elems : List (Elem F)) (lz ly lx : Nat)
    (h : ∀ el ∈ elems, Sized el lz ly lx) :
    ((canOpenNek digit path = true ∧ ∀ el ∈ elems, AsMany rnd el lz ly lx) → openDataset digit rnd path elems = .ok (elems.map (variablesOf rnd))) ∧
    (¬ (canOpenNek digit path = true ∧ ∀ el ∈ elems, AsMany rnd el lz ly lx) → openDataset digit rnd path elems = .error .notImplemented) := by
  have hl : ∀ l : List (Elem F), (∀ el ∈ l, Sized el lz ly lx) →
      ((∀ el ∈ l, AsMany rnd el lz ly lx) → l.mapM (elemDataset rnd) = .ok (l.map (variablesOf rnd))) ∧
      (¬ (∀ el ∈ l, AsMany rnd el lz ly lx) → l.mapM (elemDataset rnd) = .error .valueError) := by
    intro l hl
    refine ⟨fun hc => mapM_ok _ _ _ fun el he => (elemDataset_spec rnd hr el lz ly lx (hl el he)).1 (hc el he), fun hc => ?_⟩
    induction l with
    | nil => exact absurd (fun _ h => absurd h (by simp)) hc
    | cons a l ih =>
      rw [List.mapM_cons]
      by_cases ha : AsMany rnd a lz ly lx
      · rw [(elemDataset_spec rnd hr a lz ly lx (hl a (by simp))).1 ha]
        have := ih (fun el he => hl el (by simp [he])) (fun h' => hc (by
          intro el he
          rcases List.mem_cons.1 he with rfl | he
          · exact ha
          · exact h' el he))
        change (l.mapM (elemDataset rnd) >>= fun r => pure (variablesOf rnd a :: r)) = _
        rw [this]
        rfl
      · rw [(elemDataset_spec rnd hr a lz ly lx (hl a (by simp))).2 ha]
        rfl
  unfold openDataset openElems
  constructor
  · rintro ⟨h1, h2⟩
    rw [if_pos h1, (hl elems h).1 h2]
  · intro hn
    split_ifs with h1
    · rw [(hl elems h).2 fun h2 => hn ⟨h1, h2⟩]
    · rfl

theorem label_variablesOf (rnd : F → F) (el : Elem F) (i : Nat) :
    label (variablesOf rnd el) ['x'] i = (meshgridToDim rnd el.pos.lz el.pos.ly el.pos.lx (el.pos.dat 0))[i]? ∧
    label (variablesOf rnd el) ['y'] i = (meshgridToDim rnd el.pos.lz el.pos.ly el.pos.lx (el.pos.dat 1))[i]? ∧
    label (variablesOf rnd el) ['z'] i = (meshgridToDim rnd el.pos.lz el.pos.ly el.pos.lx (el.pos.dat 2))[i]? := ⟨rfl, rfl, rfl⟩

/-- The coordinates extracted from one component are right exactly if it grows with the index of the axis and does not depend on the others. -/
theorem labels_iff (rnd : F → F) (hr : Monotone rnd) (lz ly lx : Nat) (hz : 0 < lz) (hy : 0 < ly) (hx : 0 < lx) (mesh : Nat → Nat → Nat → F) (ax : Axis) :
    ((meshgridToDim rnd lz ly lx mesh).length = ax.len lz ly lx ∧ ∀ k < lz, ∀ j < ly, ∀ i < lx,
      (meshgridToDim rnd lz ly lx mesh)[ax.pos k j i]?.map rnd = some (rnd (mesh k j i))) ↔
    ∃ xs : Nat → F, (∀ i j, i < j → j < ax.len lz ly lx → rnd (xs i) < rnd (xs j)) ∧ ∀ k < lz, ∀ j < ly, ∀ i < lx, rnd (mesh k j i) = rnd (xs (ax.pos k j i)) := by
  obtain ⟨h1, h2, h3, h4⟩ := C79 rnd hr lz ly lx mesh
  have hp : ∀ n < ax.len lz ly lx, ∃ k < lz, ∃ j < ly, ∃ i < lx, ax.pos k j i = n := by
    intro n hn
    cases ax with
    | z => exact ⟨n, hn, 0, hy, 0, hx, rfl⟩
    | y => exact ⟨0, hz, n, hn, 0, hx, rfl⟩
    | x => exact ⟨0, hz, 0, hy, n, hn, rfl⟩
  have hpl : ∀ k < lz, ∀ j < ly, ∀ i < lx, ax.pos k j i < ax.len lz ly lx := by
    intro k hk j hj i hi
    cases ax <;> assumption
  constructor
  · rintro ⟨hlen, h⟩
    refine ⟨fun n => (meshgridToDim rnd lz ly lx mesh)[n]?.getD (mesh 0 0 0), ?_, ?_⟩
    · intro i j hij hj
      rw [List.pairwise_map, List.pairwise_iff_getElem] at h2
      have := h2 i j (by omega) (by omega) hij
      dsimp only
      rw [List.getElem?_eq_getElem (by omega), List.getElem?_eq_getElem (by omega)]
      exact this
    · intro k hk j hj i hi
      have := h k hk j hj i hi
      have hl := hpl k hk j hj i hi
      dsimp only
      rw [List.getElem?_eq_getElem (by omega)] at this ⊢
      exact (Option.some.inj this).symm
  · rintro ⟨xs, hinc, hm⟩
    -- the rounded coordinates are the rounded values of `xs`
    have he : (meshgridToDim rnd lz ly lx mesh).map rnd = (List.range (ax.len lz ly lx)).map fun n => rnd (xs n) := by
      have hs : ((List.range (ax.len lz ly lx)).map fun n => rnd (xs n)).Pairwise (· < ·) := by
        rw [List.pairwise_map]
        refine List.pairwise_lt_range.imp_of_mem fun {a b} _ hb hab => hinc a b hab (List.mem_range.1 hb)
      refine List.Perm.eq_of_pairwise (fun a b _ _ h g => absurd h (not_lt.2 g.le)) h2 hs ?_
      refine (List.perm_ext_iff_of_nodup (h2.imp fun h => h.ne) (hs.imp fun h => h.ne)).2 fun v => ?_
      constructor
      · intro hv
        obtain ⟨w, hw, rfl⟩ := List.mem_map.1 hv
        obtain ⟨k, hk, j, hj, i, hi, rfl⟩ := h1 w hw
        exact List.mem_map.2 ⟨_, List.mem_range.2 (hpl k hk j hj i hi), (hm k hk j hj i hi).symm⟩
      · intro hv
        obtain ⟨n, hn, rfl⟩ := List.mem_map.1 hv
        obtain ⟨k, hk, j, hj, i, hi, e⟩ := hp n (List.mem_range.1 hn)
        have := h4 k hk j hj i hi
        rwa [hm k hk j hj i hi, e] at this
    refine ⟨by simpa using congrArg List.length he, fun k hk j hj i hi => ?_⟩
    have hl := hpl k hk j hj i hi
    have := congrArg (fun l : List F => l[ax.pos k j i]?) he
    simp only [List.getElem?_map] at this
    rw [this, List.getElem?_range hl, hm k hk j hj i hi]
    rfl

/-- What holds of **C103**: an element is accepted with the right labels exactly if its points form a grid aligned with the axes in which x grows with
the first index, y with the second and z with the third (up to rounding). What is missing is that all others are refused, see `C103_false`. -/
theorem C103_partial (rnd : F → F) (hr : Monotone rnd) (el : Elem F) (lz ly lx : Nat) (hz : 0 < lz) (hy : 0 < ly) (hx : 0 < lx) (h : Sized el lz ly lx) :
    (∃ v, elemDataset rnd el = .ok v ∧ Labelled rnd el lz ly lx v) ↔ AxisGrid rnd el lz ly lx := by
  obtain ⟨s1, s2, s3⟩ := h.shape el.pos (by simp)
  have lx_ := labels_iff rnd hr lz ly lx hz hy hx (el.pos.dat 0) .x
  have ly_ := labels_iff rnd hr lz ly lx hz hy hx (el.pos.dat 1) .y
  have lz_ := labels_iff rnd hr lz ly lx hz hy hx (el.pos.dat 2) .z
  have hl := label_variablesOf rnd el
  rw [s1, s2, s3] at hl
  have hcount : AsMany rnd el lz ly lx ↔ (meshgridToDim rnd lz ly lx (el.pos.dat 0)).length = lx ∧ (meshgridToDim rnd lz ly lx (el.pos.dat 1)).length = ly ∧
      (meshgridToDim rnd lz ly lx (el.pos.dat 2)).length = lz := by
    rw [length_meshgridToDim rnd hr, length_meshgridToDim rnd hr, length_meshgridToDim rnd hr]
    rfl
  constructor
  · rintro ⟨v, hv, hlab⟩
    have hc : AsMany rnd el lz ly lx := by
      by_contra hc
      rw [(elemDataset_spec rnd hr el lz ly lx h).2 hc] at hv
      cases hv
    rw [(elemDataset_spec rnd hr el lz ly lx h).1 hc] at hv
    cases hv
    obtain ⟨c1, c2, c3⟩ := hcount.1 hc
    obtain ⟨xs, x1, x2⟩ := lx_.1 ⟨c1, fun k hk j hj i hi => by rw [← (hlab k hk j hj i hi).1, (hl i).1]; rfl⟩
    obtain ⟨ys, y1, y2⟩ := ly_.1 ⟨c2, fun k hk j hj i hi => by rw [← (hlab k hk j hj i hi).2.1, (hl j).2.1]; rfl⟩
    obtain ⟨zs, z1, z2⟩ := lz_.1 ⟨c3, fun k hk j hj i hi => by rw [← (hlab k hk j hj i hi).2.2, (hl k).2.2]; rfl⟩
    exact ⟨xs, ys, zs, x1, y1, z1, fun k hk j hj i hi => ⟨x2 k hk j hj i hi, y2 k hk j hj i hi, z2 k hk j hj i hi⟩⟩
  · rintro ⟨xs, ys, zs, x1, y1, z1, hm⟩
    obtain ⟨c1, g1⟩ := lx_.2 ⟨xs, x1, fun k hk j hj i hi => (hm k hk j hj i hi).1⟩
    obtain ⟨c2, g2⟩ := ly_.2 ⟨ys, y1, fun k hk j hj i hi => (hm k hk j hj i hi).2.1⟩
    obtain ⟨c3, g3⟩ := lz_.2 ⟨zs, z1, fun k hk j hj i hi => (hm k hk j hj i hi).2.2⟩
    refine ⟨_, (elemDataset_spec rnd hr el lz ly lx h).1 (hcount.2 ⟨c1, c2, c3⟩), fun k hk j hj i hi => ?_⟩
    rw [(hl i).1, (hl j).2.1, (hl k).2.2]
    exact ⟨g1 k hk j hj i hi, g2 k hk j hj i hi, g3 k hk j hj i hi⟩

/-- Every box with its sides along the axes is accepted if the axis of x has as many points as the first, and so on, whatever the orientation. -/
theorem asMany_of_box (rnd : F → F) (hr : Monotone rnd) (el : Elem F) (lz ly lx : Nat) (hz : 0 < lz) (hy : 0 < ly) (hx : 0 < lx) (a b c : Axis)
    (ha : a.len lz ly lx = lx) (hb : b.len lz ly lx = ly) (hc : c.len lz ly lx = lz) (xs ys zs : Nat → F)
    (hm : ∀ k < lz, ∀ j < ly, ∀ i < lx, el.pos.dat 0 k j i = xs (a.pos k j i) ∧ el.pos.dat 1 k j i = ys (b.pos k j i) ∧ el.pos.dat 2 k j i = zs (c.pos k j i))
    (dx : ∀ i < lx, ∀ j < lx, rnd (xs i) = rnd (xs j) → i = j) (dy : ∀ i < ly, ∀ j < ly, rnd (ys i) = rnd (ys j) → i = j)
    (dz : ∀ i < lz, ∀ j < lz, rnd (zs i) = rnd (zs j) → i = j) : AsMany rnd el lz ly lx := by
  have g1 := (C79_box rnd hr lz ly lx hz hy hx (el.pos.dat 0) a xs (fun k hk j hj i hi => (hm k hk j hj i hi).1) (by rw [ha]; exact dx)).2.1.length_eq
  have g2 := (C79_box rnd hr lz ly lx hz hy hx (el.pos.dat 1) b ys (fun k hk j hj i hi => (hm k hk j hj i hi).2.1) (by rw [hb]; exact dy)).2.1.length_eq
  have g3 := (C79_box rnd hr lz ly lx hz hy hx (el.pos.dat 2) c zs (fun k hk j hj i hi => (hm k hk j hj i hi).2.2) (by rw [hc]; exact dz)).2.1.length_eq
  rw [length_meshgridToDim rnd hr, List.length_map, List.length_range] at g1 g2 g3
  exact ⟨g1.trans ha, g2.trans hb, g3.trans hc⟩

/-- Without coordinates (all of them zero, as in files that only have the other variables) a field is refused. -/
theorem C103_no_coordinates [Zero F] (digit : Char → Bool) (rnd : F → F) (hr : Monotone rnd) (path : List Char) (elems : List (Elem F)) (lz ly lx : Nat)
    (hx : 1 < lx) (h : ∀ el ∈ elems, Sized el lz ly lx) (el : Elem F) (he : el ∈ elems) (h0 : ∀ k j i, el.pos.dat 0 k j i = 0) :
    openDataset digit rnd path elems = .error .notImplemented := by
  refine (C103_accepts digit rnd hr path elems lz ly lx h).2 fun hc => ?_
  have h1 := (hc.2 el he).1
  have h2 : coordValues rnd el lz ly lx 0 ⊆ {rnd 0} := by
    rintro v ⟨k, -, j, -, i, -, rfl⟩
    rw [h0]
    rfl
  have h3 := Set.ncard_le_ncard h2
  rw [h1, Set.ncard_singleton] at h3
  omega

end

namespace Samples

/-- A cube with eight points, given by the positions. -/
def cubeOf (f : Nat → Nat → Nat → Nat → ℚ) : Elem ℚ := { (Elem.new 1 0 0 2 2 2 1 : Elem ℚ) with pos := ⟨3, 2, 2, 2, f⟩ }

theorem cube_sized (f : Nat → Nat → Nat → Nat → ℚ) : Sized (cubeOf f) 2 2 2 := by
  refine ⟨rfl, rfl, fun a ha => ?_⟩
  simp only [List.mem_cons, List.not_mem_nil, or_false] at ha
  rcases ha with rfl | rfl | rfl | rfl | rfl <;> exact ⟨rfl, rfl, rfl⟩

end Samples

/-- **C103** is false in the code: a cube turned by 90 degrees, and a cube in which x decreases, are accepted with coordinates in increasing order,
which are not those of the points. -/
theorem C103_false (digit : Char → Bool) (path : List Char) (hp : canOpenNek digit path = true) :
    ∀ f ∈ [(fun d k j i => if d = 0 then 1 - (j : ℚ) else if d = 1 then (i : ℚ) else k : Nat → Nat → Nat → Nat → ℚ),
      (fun d k j i => if d = 0 then 1 - (i : ℚ) else if d = 1 then (j : ℚ) else k)],
    ∃ v, openDataset digit (round8 : ℚ → ℚ) path [Samples.cubeOf f] = .ok [v] ∧ ¬ Labelled (round8 : ℚ → ℚ) (Samples.cubeOf f) 2 2 2 v := by
  intro f hf
  have hs := Samples.cube_sized f
  have inc : ∀ i < 2, ∀ j < 2, round8 ((i : Nat) : ℚ) = round8 ((j : Nat) : ℚ) → i = j := by decide +kernel
  have dec : ∀ i < 2, ∀ j < 2, round8 (1 - ((i : Nat) : ℚ)) = round8 (1 - ((j : Nat) : ℚ)) → i = j := by decide +kernel
  have hc : AsMany (round8 : ℚ → ℚ) (Samples.cubeOf f) 2 2 2 := by
    simp only [List.mem_cons, List.not_mem_nil, or_false] at hf
    rcases hf with rfl | rfl
    · exact asMany_of_box round8 round8_mono _ 2 2 2 (by omega) (by omega) (by omega) .y .x .z rfl rfl rfl (fun i => 1 - (i : ℚ)) (fun i => i) (fun i => i)
        (fun k _ j _ i _ => ⟨rfl, rfl, rfl⟩) dec inc inc
    · exact asMany_of_box round8 round8_mono _ 2 2 2 (by omega) (by omega) (by omega) .x .y .z rfl rfl rfl (fun i => 1 - (i : ℚ)) (fun i => i) (fun i => i)
        (fun k _ j _ i _ => ⟨rfl, rfl, rfl⟩) dec inc inc
  refine ⟨_, (C103_accepts digit round8 round8_mono path [Samples.cubeOf f] 2 2 2 (by simpa using hs)).1 ⟨hp, by simpa using hc⟩, fun hl => ?_⟩
  obtain ⟨xs, _, _, h1, -, -, h2⟩ := (C103_partial round8 round8_mono (Samples.cubeOf f) 2 2 2 (by omega) (by omega) (by omega) hs).1
    ⟨_, (elemDataset_spec round8 round8_mono _ 2 2 2 hs).1 hc, hl⟩
  have h01 := h1 0 1 (by omega) (by omega)
  -- the corner at the origin of the indices is not the one with the smallest x
  have a := (h2 0 (by omega) 0 (by omega) 0 (by omega)).1
  have b := (h2 0 (by omega) 1 (by omega) 1 (by omega)).1
  rw [← a, ← b] at h01
  simp only [List.mem_cons, List.not_mem_nil, or_false] at hf
  rcases hf with rfl | rfl <;> (revert h01; decide +kernel)

/-- A cube in the usual orientation. -/
example (digit : Char → Bool) : ∃ v, openDataset digit (round8 : ℚ → ℚ) "a.fld".toList
      [Samples.cubeOf fun d k j i => if d = 0 then (i : ℚ) else if d = 1 then (j : ℚ) / 2 else k - 3] = .ok [v] ∧
    Labelled (round8 : ℚ → ℚ) (Samples.cubeOf fun d k j i => if d = 0 then (i : ℚ) else if d = 1 then (j : ℚ) / 2 else k - 3) 2 2 2 v := by
  have hs := Samples.cube_sized fun d k j i => if d = 0 then (i : ℚ) else if d = 1 then (j : ℚ) / 2 else k - 3
  obtain ⟨v, h1, h2⟩ := (C103_partial (round8 : ℚ → ℚ) round8_mono _ 2 2 2 (by omega) (by omega) (by omega) hs).2
    ⟨fun i => i, fun i => (i : ℚ) / 2, fun i => (i : ℚ) - 3,
      fun i j h g => by
        have : ∀ j < 2, ∀ i < j, round8 ((i : Nat) : ℚ) < round8 ((j : Nat) : ℚ) := by decide +kernel
        exact this j g i h,
      fun i j h g => by
        have : ∀ j < 2, ∀ i < j, round8 (((i : Nat) : ℚ) / 2) < round8 (((j : Nat) : ℚ) / 2) := by decide +kernel
        exact this j g i h,
      fun i j h g => by
        have : ∀ j < 2, ∀ i < j, round8 (((i : Nat) : ℚ) - 3) < round8 (((j : Nat) : ℚ) - 3) := by decide +kernel
        exact this j g i h,
      fun k _ j _ i _ => ⟨rfl, rfl, rfl⟩⟩
  refine ⟨v, ?_, h2⟩
  have hp : canOpenNek digit "a.fld".toList = true := (C78_partial digit _).2 ⟨['a'], ['l', 'd'], [], rfl, by decide, .inl rfl⟩
  unfold openDataset openElems
  rw [if_pos hp, List.mapM_cons, h1]
  rfl

end Pymech
