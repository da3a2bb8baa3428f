import Verif.Samples
import Verif.Core.Lims
import Verif.Lemmas.Basic
import Mathlib.Order.Bounds.Basic
import Mathlib.Order.Bounds.Image
import Mathlib.Order.Lattice

/-!
# C32–C34 `lims`
-/

set_option linter.unusedSectionVars false

namespace Pymech

variable {F : Type}

namespace Spec

/-- All values of component `c` of variable `v` in a collection of elements. -/
def values (els : List (Elem F)) (v : VarName) (c : Nat) : Set F :=
  { x | ∃ el ∈ els, ∃ k < (el.get v).lz, ∃ j < (el.get v).ly, ∃ i < (el.get v).lx, x = (el.get v).dat c k j i }

/-- All elements have `N v` components of each variable, on a non-empty grid. -/
def SameShape (N : VarName → Nat) (els : List (Elem F)) : Prop :=
  ∀ el ∈ els, ∀ v, (el.get v).n = N v ∧ 0 < (el.get v).lz ∧ 0 < (el.get v).ly ∧ 0 < (el.get v).lx

/-- `L` lists for each component of each variable its least and its greatest value. -/
def AreLimits [LinearOrder F] (N : VarName → Nat) (els : List (Elem F)) (L : VarName → List (F × F)) : Prop :=
  ∀ v, (L v).length = N v ∧
    ∀ c < N v, ∃ p, (L v)[c]? = some p ∧ IsLeast (values els v c) p.1 ∧ IsGreatest (values els v c) p.2

end Spec

open Spec

theorem mem_comp (a : Arr F) (c : Nat) (x : F) :
    x ∈ a.comp c ↔ ∃ k < a.lz, ∃ j < a.ly, ∃ i < a.lx, x = a.dat c k j i := by
  unfold Arr.comp
  simp only [List.mem_flatMap, List.mem_map, List.mem_range]
  constructor
  · rintro ⟨k, hk, j, hj, i, hi, rfl⟩; exact ⟨k, hk, j, hj, i, hi, rfl⟩
  · rintro ⟨k, hk, j, hj, i, hi, rfl⟩; exact ⟨k, hk, j, hj, i, hi, rfl⟩

theorem mapM_ok' {α β : Type} (l : List α) (g : α → Py β) (hg : ∀ x ∈ l, ∃ y, g x = .ok y) :
    ∃ r, l.mapM g = .ok r ∧ r.length = l.length ∧ ∀ (i : Nat) x, l[i]? = some x → ∃ y, r[i]? = some y ∧ g x = .ok y := by
  induction l with
  | nil => exact ⟨[], rfl, rfl, by simp⟩
  | cons a l ih =>
    obtain ⟨y, hy⟩ := hg a (by simp)
    obtain ⟨r, hr, hl, hi⟩ := ih (fun x hx => hg x (by simp [hx]))
    refine ⟨y :: r, ?_, by simp [hl], ?_⟩
    · rw [List.mapM_cons, hy, hr]; rfl
    · intro i x h
      cases i with
      | zero => simp at h; subst h; exact ⟨y, by simp, hy⟩
      | succ i => simp at h ⊢; exact hi i x h

theorem reduceAxis_spec (a : Arr F) (op : F → F → F) (h : 0 < a.lz ∧ 0 < a.ly ∧ 0 < a.lx) :
    ∃ r, a.reduceAxis op = .ok r ∧ r.length = a.n ∧
      ∀ c < a.n, ∃ x xs, a.comp c = x :: xs ∧ r[c]? = some (xs.foldl op x) := by
  have hne : ∀ c, ∃ x xs, a.comp c = x :: xs := by
    intro c
    cases hc : a.comp c with
    | nil =>
      have : a.dat c 0 0 0 ∈ a.comp c := (mem_comp a c _).2 ⟨0, h.1, 0, h.2.1, 0, h.2.2, rfl⟩
      rw [hc] at this; cases this
    | cons x xs => exact ⟨x, xs, rfl⟩
  obtain ⟨r, hr, hl, hi⟩ := mapM_ok' (List.range a.n) (fun c => match a.comp c with
    | [] => .error .valueError
    | x :: xs => .ok (xs.foldl op x)) (by
      intro c _
      obtain ⟨x, xs, e⟩ := hne c
      exact ⟨_, by rw [e]⟩)
  refine ⟨r, hr, by simpa using hl, fun c hc => ?_⟩
  obtain ⟨x, xs, e⟩ := hne c
  obtain ⟨y, h1, h2⟩ := hi c c (by simp [hc])
  rw [e] at h2
  cases h2
  exact ⟨x, xs, e, h1⟩

/-- `op` combines extrema, in the sense of `P`, of two sets to that of their union. -/
structure Combines (P : Set F → F → Prop) (op : F → F → F) : Prop where
  single : ∀ x, P {x} x
  union : ∀ S T a b, P S a → P T b → P (S ∪ T) (op a b)

theorem Combines.fold {P : Set F → F → Prop} {op : F → F → F} (h : Combines P op) (x : F) (xs : List F) :
    P { y | y ∈ x :: xs } (xs.foldl op x) := by
  have key : ∀ (xs : List F) (S : Set F) (a : F), P S a → P (S ∪ { y | y ∈ xs }) (xs.foldl op a) := by
    intro xs
    induction xs with
    | nil =>
      intro S a ha
      have : S ∪ { y | y ∈ ([] : List F) } = S := by ext y; simp
      rw [this]
      exact ha
    | cons b xs ih =>
      intro S a ha
      have := ih (S ∪ {b}) (op a b) (h.union _ _ _ _ ha (h.single b))
      have e : S ∪ {b} ∪ { y | y ∈ xs } = S ∪ { y | y ∈ b :: xs } := by
        ext y
        simp only [Set.mem_union, Set.mem_singleton_iff, Set.mem_ofPred_eq, List.mem_cons, or_assoc]
      rw [e] at this
      exact this
  have := key xs {x} x (h.single x)
  have e : {x} ∪ { y | y ∈ xs } = { y | y ∈ x :: xs } := by
    ext y
    simp only [Set.mem_union, Set.mem_singleton_iff, Set.mem_ofPred_eq, List.mem_cons]
  rw [e] at this
  exact this

theorem combines_min [LinearOrder F] : Combines (F := F) IsLeast min :=
  ⟨fun _ => isLeast_singleton, fun _ _ _ _ h1 h2 => h1.union h2⟩

theorem combines_max [LinearOrder F] : Combines (F := F) IsGreatest max :=
  ⟨fun _ => isGreatest_singleton, fun _ _ _ _ h1 h2 => h1.union h2⟩

/-- Limits of a set of elements as a dictionary. -/
def Ext (Lo Hi : Set F → F → Prop) (N : VarName → Nat) (els : List (Elem F)) (d : LimsDict F) : Prop :=
  ∀ v, (d v).1.length = N v ∧ (d v).2.length = N v ∧
    ∀ c < N v, ∃ lo hi, (d v).1[c]? = some lo ∧ (d v).2[c]? = some hi ∧
      Lo (values els v c) lo ∧ Hi (values els v c) hi

theorem values_single (el : Elem F) (v : VarName) (c : Nat) : values [el] v c = { y | y ∈ (el.get v).comp c } := by
  ext x
  simp only [values, List.mem_singleton, exists_eq_left, Set.mem_ofPred_eq, mem_comp]

theorem values_append (l1 l2 : List (Elem F)) (v : VarName) (c : Nat) :
    values (l1 ++ l2) v c = values l1 v c ∪ values l2 v c := by
  ext x
  simp only [values, List.mem_append, Set.mem_ofPred_eq, Set.mem_union]
  constructor
  · rintro ⟨el, h | h, r⟩
    · exact Or.inl ⟨el, h, r⟩
    · exact Or.inr ⟨el, h, r⟩
  · rintro (⟨el, h, r⟩ | ⟨el, h, r⟩)
    · exact ⟨el, Or.inl h, r⟩
    · exact ⟨el, Or.inr h, r⟩

variable {Lo Hi : Set F → F → Prop} {mn mx : F → F → F}

theorem limsPerElement_spec (hmn : Combines Lo mn) (hmx : Combines Hi mx) (N : VarName → Nat) (el : Elem F) (h : SameShape N [el]) :
    ∃ d, limsPerElementBy mn mx el = .ok d ∧ Ext Lo Hi N [el] d := by
  have key : ∀ v, ∃ p : List F × List F, (do
      let lo ← (el.get v).reduceAxis mn
      let hi ← (el.get v).reduceAxis mx
      pure (lo, hi) : Py (List F × List F)) = .ok p ∧ p.1.length = N v ∧ p.2.length = N v ∧
      ∀ c < N v, ∃ lo hi, p.1[c]? = some lo ∧ p.2[c]? = some hi ∧
      Lo (values [el] v c) lo ∧ Hi (values [el] v c) hi := by
    intro v
    obtain ⟨hn, h1, h2, h3⟩ := h el (by simp) v
    obtain ⟨lo, hlo, llo, clo⟩ := reduceAxis_spec (el.get v) mn ⟨h1, h2, h3⟩
    obtain ⟨hi, hhi, lhi, chi⟩ := reduceAxis_spec (el.get v) mx ⟨h1, h2, h3⟩
    refine ⟨(lo, hi), by rw [hlo, hhi]; rfl, by rw [llo, hn], by rw [lhi, hn], fun c hc => ?_⟩
    obtain ⟨x, xs, e1, r1⟩ := clo c (hn ▸ hc)
    obtain ⟨x', xs', e2, r2⟩ := chi c (hn ▸ hc)
    rw [e1] at e2
    cases e2
    refine ⟨_, _, r1, r2, ?_, ?_⟩
    · rw [values_single, e1]; exact hmn.fold x xs
    · rw [values_single, e1]; exact hmx.fold x xs
  obtain ⟨p1, e1, s1⟩ := key .pos
  obtain ⟨p2, e2, s2⟩ := key .vel
  obtain ⟨p3, e3, s3⟩ := key .pres
  obtain ⟨p4, e4, s4⟩ := key .temp
  obtain ⟨p5, e5, s5⟩ := key .scal
  refine ⟨fun | .pos => p1 | .vel => p2 | .pres => p3 | .temp => p4 | .scal => p5, ?_, ?_⟩
  · unfold limsPerElementBy
    simp only [e1, e2, e3, e4, e5]
    rfl
  · intro v
    cases v
    exacts [s1, s2, s3, s4, s5]

theorem npZip_eq (op : F → F → F) (a b : List F) (h : a.length = b.length) : npZip op a b = .ok (List.zipWith op a b) := by
  unfold npZip; rw [if_pos h]

theorem limsAggregate_spec (hmn : Combines Lo mn) (hmx : Combines Hi mx) (N : VarName → Nat) (l1 l2 : List (Elem F)) (d1 d2 : LimsDict F) (h1 : Ext Lo Hi N l1 d1) (h2 : Ext Lo Hi N l2 d2) :
    ∃ d, limsAggregateBy mn mx d1 d2 = .ok d ∧ Ext Lo Hi N (l1 ++ l2) d := by
  have e : ∀ v, (do
      let lo ← npZip mn (d1 v).1 (d2 v).1
      let hi ← npZip mx (d1 v).2 (d2 v).2
      pure (lo, hi) : Py (List F × List F)) = .ok (List.zipWith mn (d1 v).1 (d2 v).1, List.zipWith mx (d1 v).2 (d2 v).2) := by
    intro v
    rw [npZip_eq _ _ _ ((h1 v).1.trans (h2 v).1.symm), npZip_eq _ _ _ ((h1 v).2.1.trans (h2 v).2.1.symm)]
    rfl
  refine ⟨fun v => (List.zipWith mn (d1 v).1 (d2 v).1, List.zipWith mx (d1 v).2 (d2 v).2), ?_, ?_⟩
  · unfold limsAggregateBy
    simp only [e]
    change Except.ok _ = Except.ok _
    congr 1
    funext v
    cases v <;> rfl
  · intro v
    refine ⟨by simp [(h1 v).1, (h2 v).1], by simp [(h1 v).2.1, (h2 v).2.1], fun c hc => ?_⟩
    obtain ⟨lo1, hi1, a1, b1, m1, g1⟩ := (h1 v).2.2 c hc
    obtain ⟨lo2, hi2, a2, b2, m2, g2⟩ := (h2 v).2.2 c hc
    refine ⟨mn lo1 lo2, mx hi1 hi2, by simp [List.getElem?_zipWith, a1, a2], by simp [List.getElem?_zipWith, b1, b2], ?_, ?_⟩
    · rw [values_append]; exact hmn.union _ _ _ _ m1 m2
    · rw [values_append]; exact hmx.union _ _ _ _ g1 g2

theorem limsReduce_spec (hmn : Combines Lo mn) (hmx : Combines Hi mx) (N : VarName → Nat) (els : List (Elem F)) (h2 : 2 ≤ els.length) (hs : SameShape N els) :
    ∃ d, limsReduceBy mn mx els = .ok d ∧ Ext Lo Hi N els d := by
  match els, h2, hs with
  | e1 :: e2 :: es, _, hs =>
    obtain ⟨d1, r1, x1⟩ := limsPerElement_spec hmn hmx N e1 (fun el hel => hs el (by simp at hel; simp [hel]))
    obtain ⟨d2, r2, x2⟩ := limsPerElement_spec hmn hmx N e2 (fun el hel => hs el (by simp at hel; simp [hel]))
    obtain ⟨d, r, x⟩ := limsAggregate_spec hmn hmx N _ _ d1 d2 x1 x2
    have loop : ∀ (es : List (Elem F)) (pre : List (Elem F)) (d : LimsDict F), SameShape N es → Ext Lo Hi N pre d →
        ∃ d', es.foldlM (fun l e => do let m ← limsPerElementBy mn mx e; limsAggregateBy mn mx l m) d = .ok d' ∧ Ext Lo Hi N (pre ++ es) d' := by
      intro es
      induction es with
      | nil => intro pre d _ hx; exact ⟨d, rfl, by simpa using hx⟩
      | cons a es ih =>
        intro pre d hs hx
        obtain ⟨da, ra, xa⟩ := limsPerElement_spec hmn hmx N a (fun el hel => hs el (by simp at hel; simp [hel]))
        obtain ⟨d', r', x'⟩ := limsAggregate_spec hmn hmx N _ _ d da hx xa
        obtain ⟨d'', r'', x''⟩ := ih (pre ++ [a]) d' (fun el hel => hs el (by simp [hel])) x'
        refine ⟨d'', ?_, by simpa using x''⟩
        simp only [List.foldlM_cons, ra, bind, Except.bind, r']
        exact r''
    obtain ⟨d', r', x'⟩ := loop es _ d (fun el hel => hs el (by simp [hel])) x
    refine ⟨d', ?_, by simpa using x'⟩
    unfold limsReduceBy
    simp only [r1, r2, r, bind, Except.bind]
    exact r'

/-- The limits for any way of taking the smaller and the larger of two numbers. -/
theorem dataLimsBy_spec (hmn : Combines Lo mn) (hmx : Combines Hi mx) (N : VarName → Nat) (els : List (Elem F)) (h2 : 2 ≤ els.length)
    (hs : SameShape N els) : ∃ L, dataLimsBy mn mx els = .ok L ∧ ∀ v, (L v).length = N v ∧
      ∀ c < N v, ∃ p, (L v)[c]? = some p ∧ Lo (values els v c) p.1 ∧ Hi (values els v c) p.2 := by
  obtain ⟨d, hd, hx⟩ := limsReduce_spec hmn hmx N els h2 hs
  refine ⟨fun v => List.zip (d v).1 (d v).2, by unfold dataLimsBy; rw [hd]; rfl, fun v => ?_⟩
  obtain ⟨l1, l2, hc⟩ := hx v
  refine ⟨by simp [l1, l2], fun c h => ?_⟩
  obtain ⟨lo, hi, a, b, m, g⟩ := hc c h
  exact ⟨(lo, hi), by simp [List.zip, List.getElem?_zipWith, a, b], m, g⟩

variable [LinearOrder F]

/-- **C32.** For a mesh with at least two elements, all with the same numbers of components, `lims` reports for each
component of each variable its least and its greatest value over all elements and grid points (and an empty tuple for a
variable without components). -/
theorem lims_extrema (N : VarName → Nat) (els : List (Elem F)) (h2 : 2 ≤ els.length) (hs : SameShape N els) :
    ∃ L, dataLims els = .ok L ∧ AreLimits N els L :=
  dataLimsBy_spec combines_min combines_max N els h2 hs

example : SameShape (fun | .pos => 3 | .vel => 3 | _ => 0) Samples.channel.elem ∧ 2 ≤ Samples.channel.elem.length := by
  refine ⟨?_, by decide +kernel⟩
  intro el hel v
  revert el
  cases v <;> decide +kernel
example : (match dataLims Samples.channel.elem with | .ok L => L .pos | _ => []) = [(0, 2), (0, 2), (0, 0)] := by
  decide +kernel

theorem areLimits_unique (N : VarName → Nat) (els els' : List (Elem F)) (hp : ∀ el, el ∈ els ↔ el ∈ els')
    (L L' : VarName → List (F × F)) (h : AreLimits N els L) (h' : AreLimits N els' L') : L = L' := by
  funext v
  have hv : ∀ c, values els v c = values els' v c := by
    intro c; ext x; simp only [values, Set.mem_ofPred_eq, hp]
  apply List.ext_getElem?
  intro c
  by_cases hc : c < N v
  · obtain ⟨p, e, m, g⟩ := (h v).2 c hc
    obtain ⟨p', e', m', g'⟩ := (h' v).2 c hc
    rw [e, e']
    rw [← hv c] at m' g'
    rw [Prod.ext (m.unique m') (g.unique g')]
  · rw [List.getElem?_eq_none (by rw [(h v).1]; omega), List.getElem?_eq_none (by rw [(h' v).1]; omega)]

/-- **C32.** `lims` does not depend on the order of the elements. -/
theorem lims_order (N : VarName → Nat) (els els' : List (Elem F)) (h2 : 2 ≤ els.length) (hs : SameShape N els)
    (hp : els.Perm els') : dataLims els = dataLims els' := by
  obtain ⟨L, hL, hx⟩ := lims_extrema N els h2 hs
  obtain ⟨L', hL', hx'⟩ := lims_extrema N els' (hp.length_eq ▸ h2) (fun el hel => hs el (hp.mem_iff.2 hel))
  rw [hL, hL', areLimits_unique N els els' (fun el => hp.mem_iff) L L' hx hx']

example : Samples.channel.elem.Perm Samples.channel.elem.reverse := (List.reverse_perm _).symm

/-! ## C33 -/

/-- **C33 fails.** For every mesh with exactly one element `lims` raises `TypeError`. -/
theorem lims_single (el : Elem F) : dataLims [el] = .error .typeError := rfl

/-- **C33 fails.** `lims` is not defined on every non-empty mesh. -/
theorem lims_not_total : ¬ ∀ els : List (Elem ℚ), els ≠ [] →
    SameShape (fun | .pos => 3 | .vel => 3 | _ => 1) els → ∃ L, dataLims els = .ok L := by
  intro h
  obtain ⟨L, hL⟩ := h [Elem.new 1 1 1 2 2 2 0] (by simp) (by
    intro el hel v
    rw [List.mem_singleton] at hel
    subst hel
    cases v <;> exact ⟨rfl, by decide, by decide, by decide⟩)
  cases hL

/-- **C33**, partial: `lims` is defined on every mesh with at least two elements. Missing: meshes with one element, for
which it raises (`lims_single`). -/
theorem lims_defined_partial (N : VarName → Nat) (els : List (Elem F)) (h0 : els ≠ []) (h1 : els.length ≠ 1) (hs : SameShape N els) :
    ∃ L, dataLims els = .ok L := by
  have : els.length ≠ 0 := by simpa using h0
  obtain ⟨L, hL, _⟩ := lims_extrema N els (by omega) hs
  exact ⟨L, hL⟩

/-- Arrays of different lengths, elements with different numbers of components: an array of length one is combined with
every entry of the other one, otherwise `ValueError` is raised. -/
theorem npZip_broadcast (op : F → F → F) (a b : List F) (h : a.length ≠ b.length) :
    (∀ x, a = [x] → npZip op a b = .ok (b.map fun y => op x y)) ∧
    (∀ y, a.length ≠ 1 → b = [y] → npZip op a b = .ok (a.map fun x => op x y)) ∧
    (a.length ≠ 1 → b.length ≠ 1 → npZip op a b = .error .valueError) := by
  unfold npZip
  rw [if_neg h]
  refine ⟨?_, ?_, ?_⟩
  · rintro x rfl; rfl
  · rintro y ha rfl
    split
    · simp at ha
    · next heq => cases heq; rfl
    · next h2 => exact absurd rfl (h2 y)
  · intro ha hb
    split
    · simp at ha
    · simp at hb
    · rfl

example : npZip (· - ·) [1] [2, 3, (5 : ℚ)] = .ok [-1, -2, -4] ∧ npZip (· - ·) [1, 2] [2, 3, (5 : ℚ)] = .error .valueError := by
  decide +kernel

/-! ## C34 -/

/-- Python's truth value: everything but `False`, `0` and empty tuples. -/
theorem truthy_iff (v : LimsVal F) :
    v.truthy = false ↔ v = .flag false ∨ v = .other 0 ∨ v = .names [] ∨ v = .limits [] := by
  cases v with
  | names l => cases l <;> simp [LimsVal.truthy]
  | limits l => cases l <;> simp [LimsVal.truthy]
  | flag b => cases b <;> simp [LimsVal.truthy]
  | other n => cases n <;> simp [LimsVal.truthy]

/-- An assignment is refused exactly if `_initialized` is set to something other than `False`, `0` or an empty tuple. -/
theorem setattr_iff (o : LimsObj F) (n : String) (v : LimsVal F) :
    o.setattr n v = .error .attributeError ↔
      ∃ w, o "_initialized" = some w ∧ ¬ (w = .flag false ∨ w = .other 0 ∨ w = .names [] ∨ w = .limits []) := by
  unfold LimsObj.setattr
  cases h : o "_initialized" with
  | none => simp
  | some w =>
    rw [Option.any_some]
    simp only [Option.some.injEq, exists_eq_left', ← truthy_iff]
    cases w.truthy <;> simp

example : (LimsObj.setattr (fun n => if n = "_initialized" then some (.limits [(0, (1 : ℚ))]) else none) "pos" (.flag true)).toBool = false ∧
    (LimsObj.setattr (fun n => if n = "_initialized" then some (.limits ([] : List (ℚ × ℚ))) else none) "pos" (.flag true)).toBool = true := by
  decide +kernel

theorem setattr_frozen (o : LimsObj F) (h : o "_initialized" = some (.flag true)) (n : String) (v : LimsVal F) :
    LimsObj.setattr o n v = .error .attributeError := by
  unfold LimsObj.setattr
  rw [h]
  rfl

theorem init_frozen (els : List (Elem F)) (o : LimsObj F) (h : LimsObj.init els = .ok o) :
    o "_initialized" = some (.flag true) := by
  unfold LimsObj.init at h
  simp only [bind, Except.bind] at h
  split at h
  · cases h
  · split at h
    · cases h
    · split at h
      · cases h
      · unfold LimsObj.setattr at h
        split_ifs at h
        cases h
        simp

/-- **C34.** Once `lims` has been constructed, every attempt to set an attribute — of any name, to any value, in any
sequence — raises `AttributeError`, and the object stays as it was. -/
theorem lims_immutable (els : List (Elem F)) (o : LimsObj F) (h : LimsObj.init els = .ok o) (w : List (String × LimsVal F)) :
    LimsObj.attempts o w = (o, w.map fun _ => some .attributeError) := by
  have hf := init_frozen els o h
  induction w with
  | nil => rfl
  | cons a w ih =>
    obtain ⟨n, v⟩ := a
    unfold LimsObj.attempts
    rw [setattr_frozen o hf n v]
    simp only [ih, List.map_cons]

/-- **C34.** The construction does succeed, and the attributes, with the names that are documented, are the limits. -/
theorem lims_init (els : List (Elem F)) (L : VarName → List (F × F)) (h : dataLims els = .ok L) :
    ∃ o, LimsObj.init els = .ok o ∧ o "pos" = some (.limits (L .pos)) ∧ o "vel" = some (.limits (L .vel)) ∧
      o "pres" = some (.limits (L .pres)) ∧ o "temp" = some (.limits (L .temp)) ∧ o "scal" = some (.limits (L .scal)) ∧
      o "_variables" = some (.names [.pos, .vel, .pres, .temp, .scal]) := by
  unfold LimsObj.init
  simp only [h, LimsObj.setattr, bind, Except.bind, List.foldlM_cons, List.foldlM_nil, VarName.attr]
  refine ⟨_, rfl, ?_⟩
  simp

example : ∃ o, LimsObj.init Samples.channel.elem = .ok o :=
  match h : dataLims Samples.channel.elem with
  | .ok L => ⟨_, (lims_init _ L h).choose_spec.1⟩
  | .error _ => absurd h (by
      have : (match dataLims Samples.channel.elem with | .ok _ => true | _ => false) = true := by decide +kernel
      intro h; rw [h] at this; cases this)

end Pymech
