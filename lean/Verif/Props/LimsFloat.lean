import Verif.Core.FloatConn
import Verif.Lemmas.FloatOps
import Verif.Props.Lims

/-!
# C140: `lims` of doubles with NaN
-/

set_option autoImplicit false

namespace Pymech

open Spec Flt

namespace Spec

/-- What numpy documents for `np.minimum`: one of the numbers, NaN if one of them is, and else not larger than the other. Which of two zeros is
taken is left open. -/
structure NanMin (op : F64 → F64 → F64) : Prop where
  pick : ∀ a b, op a b = a ∨ op a b = b
  nan : ∀ a b, a.IsNaN ∨ b.IsNaN → (op a b).IsNaN
  le : ∀ a b, ¬ a.IsNaN → ¬ b.IsNaN → op a b ≤ a ∧ op a b ≤ b

/-- The same for `np.maximum`. -/
structure NanMax (op : F64 → F64 → F64) : Prop where
  pick : ∀ a b, op a b = a ∨ op a b = b
  nan : ∀ a b, a.IsNaN ∨ b.IsNaN → (op a b).IsNaN
  ge : ∀ a b, ¬ a.IsNaN → ¬ b.IsNaN → a ≤ op a b ∧ b ≤ op a b

/-- `x` is a smallest one of the numbers in `S`; NaN if there is a NaN. -/
def SmallestF (S : Set F64) (x : F64) : Prop :=
  x ∈ S ∧ ((∃ y ∈ S, y.IsNaN) → x.IsNaN) ∧ ((∀ y ∈ S, ¬ y.IsNaN) → ∀ y ∈ S, x ≤ y)

/-- `x` is a largest one of the numbers in `S`; NaN if there is a NaN. -/
def LargestF (S : Set F64) (x : F64) : Prop :=
  x ∈ S ∧ ((∃ y ∈ S, y.IsNaN) → x.IsNaN) ∧ ((∀ y ∈ S, ¬ y.IsNaN) → ∀ y ∈ S, y ≤ x)

/-- Both NaN, or equal as numbers (zeros may have different signs). -/
def SameLimit (x y : F64) : Prop := x.IsNaN ∧ y.IsNaN ∨ x ≤ y ∧ y ≤ x

end Spec

/-- The position of a number that is not NaN in the order of the doubles. -/
def Flt.ord (x : F64) : Int := if x.neg then -(x.mag : Int) else x.mag

theorem Flt.le_iff_ord (x y : F64) : x ≤ y ↔ ¬ x.IsNaN ∧ ¬ y.IsNaN ∧ x.ord ≤ y.ord := by
  change (¬ x.IsNaN ∧ ¬ y.IsNaN ∧ le x y = true) ↔ _
  refine and_congr Iff.rfl (and_congr Iff.rfl ?_)
  exact decide_eq_true_iff

theorem Flt.leF_trans {x y z : F64} (h : x ≤ y) (g : y ≤ z) : x ≤ z := by
  rw [Flt.le_iff_ord] at *
  exact ⟨h.1, g.2.1, h.2.2.trans g.2.2⟩

theorem Flt.leF_refl {x : F64} (h : ¬ x.IsNaN) : x ≤ x := (Flt.le_iff_ord x x).mpr ⟨h, h, le_rfl⟩

theorem combines_nanMin {op : F64 → F64 → F64} (h : NanMin op) : Combines SmallestF op := by
  constructor
  · intro x
    refine ⟨rfl, ?_, ?_⟩
    · rintro ⟨y, rfl, hy⟩
      exact hy
    · rintro hn y rfl
      exact leF_refl (hn y rfl)
  · rintro S T a b ⟨ha, na, la⟩ ⟨hb, nb, lb⟩
    refine ⟨?_, ?_, ?_⟩
    · rcases h.pick a b with e | e <;> rw [e]
      · exact Or.inl ha
      · exact Or.inr hb
    · rintro ⟨y, hy | hy, hn⟩
      · exact h.nan a b (Or.inl (na ⟨y, hy, hn⟩))
      · exact h.nan a b (Or.inr (nb ⟨y, hy, hn⟩))
    · intro hn y hy
      obtain ⟨l1, l2⟩ := h.le a b (hn a (Or.inl ha)) (hn b (Or.inr hb))
      rcases hy with hy | hy
      · exact leF_trans l1 (la (fun z hz => hn z (Or.inl hz)) y hy)
      · exact leF_trans l2 (lb (fun z hz => hn z (Or.inr hz)) y hy)

theorem combines_nanMax {op : F64 → F64 → F64} (h : NanMax op) : Combines LargestF op := by
  constructor
  · intro x
    refine ⟨rfl, ?_, ?_⟩
    · rintro ⟨y, rfl, hy⟩
      exact hy
    · rintro hn y rfl
      exact leF_refl (hn y rfl)
  · rintro S T a b ⟨ha, na, la⟩ ⟨hb, nb, lb⟩
    refine ⟨?_, ?_, ?_⟩
    · rcases h.pick a b with e | e <;> rw [e]
      · exact Or.inl ha
      · exact Or.inr hb
    · rintro ⟨y, hy | hy, hn⟩
      · exact h.nan a b (Or.inl (na ⟨y, hy, hn⟩))
      · exact h.nan a b (Or.inr (nb ⟨y, hy, hn⟩))
    · intro hn y hy
      obtain ⟨l1, l2⟩ := h.ge a b (hn a (Or.inl ha)) (hn b (Or.inr hb))
      rcases hy with hy | hy
      · exact leF_trans (la (fun z hz => hn z (Or.inl hz)) y hy) l1
      · exact leF_trans (lb (fun z hz => hn z (Or.inr hz)) y hy) l2

/-- **C140.** With doubles, `lims` reports for each component of each variable a smallest and a largest value over all elements and grid points,
and NaN for both if one of the values is NaN, wherever it is. -/
theorem C140 (mn mx : F64 → F64 → F64) (hmn : NanMin mn) (hmx : NanMax mx) (N : VarName → Nat) (els : List (Elem F64)) (h2 : 2 ≤ els.length)
    (hs : SameShape N els) : ∃ L, dataLimsBy mn mx els = .ok L ∧ ∀ v, (L v).length = N v ∧
      ∀ c < N v, ∃ p, (L v)[c]? = some p ∧ SmallestF (values els v c) p.1 ∧ LargestF (values els v c) p.2 :=
  dataLimsBy_spec (combines_nanMin hmn) (combines_nanMax hmx) N els h2 hs

theorem smallestF_same {S : Set F64} {x y : F64} (hx : SmallestF S x) (hy : SmallestF S y) : SameLimit x y := by
  by_cases h : ∃ z ∈ S, z.IsNaN
  · exact Or.inl ⟨hx.2.1 h, hy.2.1 h⟩
  · have h' : ∀ z ∈ S, ¬ z.IsNaN := fun z hz hn => h ⟨z, hz, hn⟩
    exact Or.inr ⟨hx.2.2 h' y hy.1, hy.2.2 h' x hx.1⟩

theorem largestF_same {S : Set F64} {x y : F64} (hx : LargestF S x) (hy : LargestF S y) : SameLimit x y := by
  by_cases h : ∃ z ∈ S, z.IsNaN
  · exact Or.inl ⟨hx.2.1 h, hy.2.1 h⟩
  · have h' : ∀ z ∈ S, ¬ z.IsNaN := fun z hz hn => h ⟨z, hz, hn⟩
    exact Or.inr ⟨hy.2.2 h' x hx.1, hx.2.2 h' y hy.1⟩

/-- The limits do not depend on the order of the elements, nor on the way in which the smaller and larger of two numbers are taken, up to the
signs of zeros. -/
theorem C140_order (mn mx mn' mx' : F64 → F64 → F64) (hmn : NanMin mn) (hmx : NanMax mx) (hmn' : NanMin mn') (hmx' : NanMax mx')
    (N : VarName → Nat) (els els' : List (Elem F64)) (h2 : 2 ≤ els.length) (hs : SameShape N els) (hp : els.Perm els') :
    ∃ L L', dataLimsBy mn mx els = .ok L ∧ dataLimsBy mn' mx' els' = .ok L' ∧ ∀ v, (L v).length = N v ∧ (L' v).length = N v ∧
      ∀ c < N v, ∃ p q, (L v)[c]? = some p ∧ (L' v)[c]? = some q ∧ SameLimit p.1 q.1 ∧ SameLimit p.2 q.2 := by
  obtain ⟨L, hL, k⟩ := C140 mn mx hmn hmx N els h2 hs
  obtain ⟨L', hL', k'⟩ := C140 mn' mx' hmn' hmx' N els' (hp.length_eq ▸ h2) (fun el hel => hs el (hp.mem_iff.2 hel))
  refine ⟨L, L', hL, hL', fun v => ⟨(k v).1, (k' v).1, fun c hc => ?_⟩⟩
  obtain ⟨p, hp1, a, b⟩ := (k v).2 c hc
  obtain ⟨q, hq1, a', b'⟩ := (k' v).2 c hc
  have e : values els' v c = values els v c := by
    ext x
    unfold values
    simp only [Set.mem_ofPred_eq, hp.mem_iff]
  rw [e] at a' b'
  exact ⟨p, q, hp1, hq1, smallestF_same a a', largestF_same b b'⟩

/-- `np.minimum` as it is used in this model. -/
theorem npMin_nan : NanMin npMin := by
  refine ⟨fun a b => ?_, fun a b h => ?_, fun a b ha hb => ?_⟩
  · unfold npMin
    by_cases h1 : a.IsNaN
    · rw [if_pos h1]
      exact Or.inl rfl
    rw [if_neg h1]
    by_cases h2 : b.IsNaN
    · rw [if_pos h2]
      exact Or.inr rfl
    rw [if_neg h2]
    by_cases h3 : a ≤ b
    · rw [if_pos h3]
      exact Or.inl rfl
    · rw [if_neg h3]
      exact Or.inr rfl
  · unfold npMin
    by_cases h1 : a.IsNaN
    · rw [if_pos h1]
      exact h1
    · rw [if_neg h1, if_pos (h.resolve_left h1)]
      exact h.resolve_left h1
  · unfold npMin
    rw [if_neg ha, if_neg hb]
    by_cases h3 : a ≤ b
    · rw [if_pos h3]
      exact ⟨leF_refl ha, h3⟩
    · rw [if_neg h3]
      refine ⟨?_, leF_refl hb⟩
      rw [Flt.le_iff_ord] at *
      refine ⟨hb, ha, ?_⟩
      by_contra hc
      exact h3 ⟨ha, hb, by omega⟩

/-- `np.maximum`: the smaller one in the order turned around. -/
def npMax (a b : F64) : F64 := (npMin a.flip b.flip).flip

theorem flip_flip' (x : F64) : x.flip.flip = x := Flt.ext' (Bool.not_not x.neg) rfl

theorem ord_flip (x : F64) : x.flip.ord = -x.ord := by
  unfold Flt.ord Flt.flip
  cases hx : x.neg <;> simp

theorem le_flip (x y : F64) : x.flip ≤ y ↔ y.flip ≤ x := by
  rw [Flt.le_iff_ord, Flt.le_iff_ord, ord_flip, ord_flip]
  constructor
  · rintro ⟨h1, h2, h3⟩
    exact ⟨h2, h1, by omega⟩
  · rintro ⟨h1, h2, h3⟩
    exact ⟨h2, h1, by omega⟩

theorem npMax_nan : NanMax npMax := by
  refine ⟨fun a b => ?_, fun a b h => npMin_nan.nan a.flip b.flip h, fun a b ha hb => ?_⟩
  · unfold npMax
    rcases npMin_nan.pick a.flip b.flip with e | e <;> rw [e, flip_flip']
    · exact Or.inl rfl
    · exact Or.inr rfl
  · obtain ⟨h1, h2⟩ := npMin_nan.le a.flip b.flip ha hb
    unfold npMax
    constructor
    · have := (le_flip a.flip (npMin a.flip b.flip).flip)
      rw [flip_flip', flip_flip'] at this
      exact this.mpr h1
    · have := (le_flip b.flip (npMin a.flip b.flip).flip)
      rw [flip_flip', flip_flip'] at this
      exact this.mpr h2

namespace Samples

/-- Two elements with one velocity; in the second one a value is NaN. -/
def limsF (x : F64) : List (Elem F64) :=
  [{ (Elem.new 0 0 0 2 2 1 1 : Elem F64) with vel := ⟨3, 1, 2, 2, fun d _ _ i => ((d + i : Nat) : F64)⟩ },
   { (Elem.new 0 0 0 2 2 1 1 : Elem F64) with vel := ⟨3, 1, 2, 2, fun d _ j i => if d = 1 ∧ j = 1 ∧ i = 0 then x else ((7 : Nat) : F64)⟩ }]

theorem limsF_shape (x : F64) : SameShape (fun | .pos => 3 | .vel => 3 | .pres => 0 | .temp => 0 | .scal => 0) (limsF x) := by
  intro el hel v
  simp only [limsF, List.mem_cons, List.not_mem_nil, or_false] at hel
  rcases hel with rfl | rfl <;> cases v <;> exact ⟨rfl, Nat.succ_pos _, Nat.succ_pos _, Nat.succ_pos _⟩

example (x : F64) : ∃ L, dataLimsBy npMin npMax (limsF x) = .ok L ∧ ∀ c < 3, ∃ p, (L .vel)[c]? = some p ∧
    SmallestF (values (limsF x) .vel c) p.1 ∧ LargestF (values (limsF x) .vel c) p.2 := by
  obtain ⟨L, h, k⟩ := C140 npMin npMax npMin_nan npMax_nan _ (limsF x) le_rfl (limsF_shape x)
  exact ⟨L, h, (k .vel).2⟩

/-- A NaN in the second component shows in its limits only. -/
example : (match dataLimsBy npMin npMax (limsF nan) with | .ok L => (L .vel) | _ => []) =
    [(0, ((7 : Nat) : F64)), (nan, nan), (((2 : Nat) : F64), ((7 : Nat) : F64))] := by decide +kernel

example : (match dataLimsBy npMin npMax (limsF ((9 : Nat) : F64).flip) with | .ok L => (L .vel) | _ => []) =
    [(0, ((7 : Nat) : F64)), (((9 : Nat) : F64).flip, ((7 : Nat) : F64)), (((2 : Nat) : F64), ((7 : Nat) : F64))] := by decide +kernel

end Samples

end Pymech
