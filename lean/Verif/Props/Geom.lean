import Verif.Core.Geom
import Verif.Lemmas.Basic
import Mathlib.Tactic.FinCases
import Mathlib.Tactic.FieldSimp
import Mathlib.Tactic.Positivity
import Mathlib.Tactic.NormNum

/-!
# C35 `face_center`, C36 `smallest_edge`, centroid
-/

namespace Pymech
namespace Spec

/-- Corner of an element: low (`false`) or high (`true`) end in x, y, z. -/
def corner {F : Type} (el : Elem F) (sx sy sz : Bool) (d : Nat) : F :=
  el.pos.dat d (if sz then el.pos.lz - 1 else 0) (if sy then el.pos.ly - 1 else 0)
    (if sx then el.pos.lx - 1 else 0)

/-- Nek face numbering (zero-based): 0 = low y, 1 = high x, 2 = high y, 3 = low x, 4 = low z, 5 = high z.
`faceCoord el f a b d`: coordinate `d` of the corner of face `f` at ends `a`, `b` of the two other axes. -/
def faceCoord {F : Type} (el : Elem F) (f : Nat) (a b : Bool) (d : Nat) : F :=
  match f with
  | 0 => corner el a false b d
  | 1 => corner el true a b d
  | 2 => corner el a true b d
  | 3 => corner el false a b d
  | 4 => corner el a b false d
  | _ => corner el a b true d

/-- Mean of the four corners of a face. -/
def faceMean {F : Type} [Field F] (el : Elem F) (f : Nat) (d : Nat) : F :=
  (faceCoord el f false false d + faceCoord el f false true d + faceCoord el f true false d
    + faceCoord el f true true d) / 4

end Spec

/-- **C35.** `face_center(i)` is the mean of the four corners of face `i`, `0 ≤ i ≤ 5`, for any element order. -/
theorem face_center_eq_mean {F : Type} [Field F] (el : Elem F) (f : Nat) (hf : f < 6)
    (hx : 0 < el.pos.lx) (hy : 0 < el.pos.ly) (hz : 0 < el.pos.lz) :
    el.faceCenter f = .ok ⟨Spec.faceMean el f 0, Spec.faceMean el f 1, Spec.faceMean el f 2⟩ := by
  have hne : ¬ (el.pos.lx = 0 ∨ el.pos.ly = 0 ∨ el.pos.lz = 0) := by omega
  have hc : ∀ k, el.pos.corner k = .ok ⟨Spec.corner el k.1 k.2.1 k.2.2 0, Spec.corner el k.1 k.2.1 k.2.2 1,
      Spec.corner el k.1 k.2.1 k.2.2 2⟩ := by
    intro k; simp only [Arr.corner, hne, if_false, Spec.corner]
  have key : ∀ k1 k2 k3 k4, faceCorners f = .ok (k1, k2, k3, k4) →
      el.faceCenter f = .ok ⟨
        1 / 4 * (Spec.corner el k1.1 k1.2.1 k1.2.2 0 + Spec.corner el k2.1 k2.2.1 k2.2.2 0
          + Spec.corner el k3.1 k3.2.1 k3.2.2 0 + Spec.corner el k4.1 k4.2.1 k4.2.2 0),
        1 / 4 * (Spec.corner el k1.1 k1.2.1 k1.2.2 1 + Spec.corner el k2.1 k2.2.1 k2.2.2 1
          + Spec.corner el k3.1 k3.2.1 k3.2.2 1 + Spec.corner el k4.1 k4.2.1 k4.2.2 1),
        1 / 4 * (Spec.corner el k1.1 k1.2.1 k1.2.2 2 + Spec.corner el k2.1 k2.2.1 k2.2.2 2
          + Spec.corner el k3.1 k3.2.1 k3.2.2 2 + Spec.corner el k4.1 k4.2.1 k4.2.2 2)⟩ := by
    intro k1 k2 k3 k4 h
    unfold Elem.faceCenter
    rw [h]
    simp only [bind, Except.bind, hc, pure, Except.pure]
  have hcase : f = 0 ∨ f = 1 ∨ f = 2 ∨ f = 3 ∨ f = 4 ∨ f = 5 := by omega
  rcases hcase with rfl | rfl | rfl | rfl | rfl | rfl <;>
    (rw [key _ _ _ _ rfl]; simp only [Spec.faceMean, Spec.faceCoord, Except.ok.injEq, V3.mk.injEq]
     refine ⟨?_, ?_, ?_⟩ <;> ring)

/-- **C35.** Any other face number raises (`UnboundLocalError`). -/
theorem face_center_invalid {F : Type} [Field F] (el : Elem F) (i : Int) (hi : i < 0 ∨ 6 ≤ i) :
    el.faceCenter i = .error .unboundLocal := by
  have : faceCorners i = .error .unboundLocal := by
    unfold faceCorners
    rw [if_neg (by omega), if_neg (by omega), if_neg (by omega), if_neg (by omega), if_neg (by omega), if_neg (by omega)]
  unfold Elem.faceCenter
  rw [this]
  rfl

/-- The ends of edge `f` (`0..3`) of a 2D element. -/
def Spec.edgeEnd {F : Type} (el : Elem F) (f : Nat) (a : Bool) (d : Nat) : F :=
  match f with
  | 0 => Spec.corner el a false false d
  | 1 => Spec.corner el true a false d
  | 2 => Spec.corner el a true false d
  | _ => Spec.corner el false a false d

/-- **C35.** For a 2D element the centre of faces 0–3 is the midpoint of the edge. -/
theorem face_center_2d {F : Type} [Field F] [CharZero F] (el : Elem F) (f : Nat) (hf : f < 4)
    (hx : 0 < el.pos.lx) (hy : 0 < el.pos.ly) (hz : el.pos.lz = 1) :
    el.faceCenter f = .ok ⟨(Spec.edgeEnd el f false 0 + Spec.edgeEnd el f true 0) / 2,
      (Spec.edgeEnd el f false 1 + Spec.edgeEnd el f true 1) / 2,
      (Spec.edgeEnd el f false 2 + Spec.edgeEnd el f true 2) / 2⟩ := by
  rw [face_center_eq_mean el f (by omega) hx hy (by omega)]
  have hz' : ∀ sx sy d, Spec.corner el sx sy true d = Spec.corner el sx sy false d := by
    intro sx sy d; simp [Spec.corner, hz]
  have hcase : f = 0 ∨ f = 1 ∨ f = 2 ∨ f = 3 := by omega
  rcases hcase with rfl | rfl | rfl | rfl <;>
    (simp only [Spec.faceMean, Spec.faceCoord, Spec.edgeEnd, Except.ok.injEq, V3.mk.injEq, hz']
     refine ⟨?_, ?_, ?_⟩ <;> (field_simp; ring))

/-- An axis-parallel box element of order `lx = ly = 2`, `lz ∈ {1,2}` used in examples. -/
def boxElem {F : Type} [Zero F] (lz : Nat) (x0 x1 y0 y1 z0 z1 : F) : Elem F :=
  { Elem.new 0 0 0 2 2 lz 1 with
    pos := ⟨3, lz, 2, 2, fun d k j i =>
      if d = 0 then (if i = 0 then x0 else x1) else if d = 1 then (if j = 0 then y0 else y1)
      else (if k = 0 then z0 else z1)⟩ }

example : (boxElem 2 (0 : ℚ) 4 0 2 0 6).faceCenter 1 = .ok ⟨4, 1, 3⟩ := by decide +kernel
example : (boxElem 1 (0 : ℚ) 4 0 2 0 0).faceCenter 2 = .ok ⟨2, 2, 0⟩ := by decide +kernel

/-! ## C36 -/

namespace Spec

/-- Squared lengths of the four edges of the lower face / 2D element. -/
def edgesLow {F : Type} [Field F] (el : Elem F) (iz : Nat) : List F :=
  let sq (j i j' i' : Nat) : F := (el.pos.dat 0 iz j i - el.pos.dat 0 iz j' i') ^ 2
    + (el.pos.dat 1 iz j i - el.pos.dat 1 iz j' i') ^ 2 + (el.pos.dat 2 iz j i - el.pos.dat 2 iz j' i') ^ 2
  [sq 0 0 0 1, sq 0 1 1 1, sq 1 1 1 0, sq 1 0 0 0]

/-- Squared lengths of the four edges in z. -/
def edgesZ {F : Type} [Field F] (el : Elem F) : List F :=
  let sq (j i : Nat) : F := (el.pos.dat 0 0 j i - el.pos.dat 0 1 j i) ^ 2
    + (el.pos.dat 1 0 j i - el.pos.dat 1 1 j i) ^ 2 + (el.pos.dat 2 0 j i - el.pos.dat 2 1 j i) ^ 2
  [sq 0 0, sq 0 1, sq 1 1, sq 1 0]

/-- All edges: 4 of a 2D element, 12 of a 3D one. -/
def edges {F : Type} [Field F] (el : Elem F) : List F :=
  if el.pos.lz ≤ 1 then edgesLow el 0 else edgesLow el 0 ++ edgesLow el 1 ++ edgesZ el

/-- `s` is the squared length of the shortest edge. -/
def IsShortestSq {F : Type} [Field F] [LinearOrder F] (el : Elem F) (s : F) : Prop :=
  s ∈ edges el ∧ ∀ t ∈ edges el, s ≤ t

end Spec

/-- **C36 is false**: for a 10 × 1 rectangle `smallest_edge()` is 10 (squared: 100), but the shortest edge has length 1.
The code measures the two x-edges and the two diagonals. -/
theorem smallest_edge_wrong : ∃ el : Elem ℚ, ∃ s, el.pos.lx = 2 ∧ el.pos.ly = 2 ∧ el.pos.lz = 1 ∧
    el.smallestEdgeSq = .ok s ∧ s = 100 ∧ Spec.IsShortestSq el 1 ∧ ¬ Spec.IsShortestSq el s := by
  refine ⟨boxElem 1 0 10 0 1 0 0, 100, rfl, rfl, rfl, by decide +kernel, rfl, ?_, ?_⟩
  · unfold Spec.IsShortestSq; decide +kernel
  · unfold Spec.IsShortestSq; decide +kernel

theorem minList_le {F : Type} [LinearOrder F] (a : F) (l : List F) :
    minList a l ≤ a ∧ ∀ x ∈ l, minList a l ≤ x := by
  unfold minList
  induction l generalizing a with
  | nil => simp
  | cons b l ih =>
    simp only [List.foldl_cons, List.mem_cons, forall_eq_or_imp]
    have := ih (min a b)
    exact ⟨this.1.trans (min_le_left _ _), this.1.trans (min_le_right _ _), this.2⟩

theorem minList_mem {F : Type} [LinearOrder F] (a : F) (l : List F) : minList a l = a ∨ minList a l ∈ l := by
  unfold minList
  induction l generalizing a with
  | nil => simp
  | cons b l ih =>
    simp only [List.foldl_cons, List.mem_cons]
    rcases ih (min a b) with h | h
    · rw [h]
      rcases min_choice a b with h' | h' <;> simp [h']
    · exact Or.inr (Or.inr h)

theorem minList_eq {F : Type} [LinearOrder F] (a : F) (l : List F) (s : F) (h1 : s = a ∨ s ∈ l)
    (h2 : s ≤ a ∧ ∀ x ∈ l, s ≤ x) : minList a l = s := by
  apply le_antisymm
  · rcases h1 with rfl | h
    · exact (minList_le _ _).1
    · exact (minList_le _ _).2 s h
  · rcases minList_mem a l with h | h
    · rw [h]; exact h2.1
    · exact h2.2 _ h

/-- `el` is the axis-parallel box with edge lengths `hx, hy, hz`. -/
def Spec.IsBox {F : Type} [Field F] (el : Elem F) (x0 y0 z0 hx hy hz : F) : Prop :=
  ∀ k < el.pos.lz, ∀ j < 2, ∀ i < 2,
    el.pos.dat 0 k j i = x0 + (if i = 0 then 0 else hx) ∧
    el.pos.dat 1 k j i = y0 + (if j = 0 then 0 else hy) ∧
    el.pos.dat 2 k j i = z0 + (if k = 0 then 0 else hz)

/-- **C36, what holds (2D).** For an axis-parallel rectangle the value is the length in x, which is right exactly if it is not greater than
the one in y. -/
theorem smallest_edge_box2d_partial {F : Type} [Field F] [LinearOrder F] [IsStrictOrderedRing F] (el : Elem F)
    (x0 y0 z0 hx hy : F) (hlx : el.pos.lx = 2) (hly : el.pos.ly = 2) (hlz : el.pos.lz = 1)
    (hb : Spec.IsBox el x0 y0 z0 hx hy 0) (h0 : 0 ≤ hx) (h0y : 0 ≤ hy) :
    el.smallestEdgeSq = .ok (hx ^ 2) ∧ (Spec.IsShortestSq el (hx ^ 2) ↔ hx ≤ hy) := by
  have hsq : hx ≤ hy ↔ hx ^ 2 ≤ hy ^ 2 := (pow_le_pow_iff_left₀ h0 h0y two_ne_zero).symm
  have hyy : 0 ≤ hy ^ 2 := by positivity
  have h00 := hb 0 (by omega) 0 (by omega) 0 (by omega)
  have h01 := hb 0 (by omega) 0 (by omega) 1 (by omega)
  have h10 := hb 0 (by omega) 1 (by omega) 0 (by omega)
  have h11 := hb 0 (by omega) 1 (by omega) 1 (by omega)
  simp only [if_true, Nat.one_ne_zero, if_false] at h00 h01 h10 h11
  constructor
  · unfold Elem.smallestEdgeSq
    rw [if_neg (by omega)]
    simp only [hlz, gt_iff_lt, lt_irrefl, if_false, Except.ok.injEq]
    apply minList_eq
    · left
      simp only [distSq, Elem.pt, h00, h01]; ring
    · simp only [distSq, Elem.pt, h00, h01, h10, h11, List.mem_cons, List.not_mem_nil, or_false, forall_eq_or_imp,
        forall_eq]
      refine ⟨?_, ?_, ?_, ?_⟩ <;> nlinarith
  · rw [hsq]
    unfold Spec.IsShortestSq
    simp only [Spec.edges, hlz, le_refl, if_true, Spec.edgesLow, List.mem_cons, List.not_mem_nil, or_false,
      forall_eq_or_imp, forall_eq, h00, h01, h10, h11]
    constructor
    · rintro ⟨-, -, h, -⟩
      linarith
    · intro h
      refine ⟨Or.inl (by ring), ?_, ?_, ?_, ?_⟩ <;> linarith

example : Spec.IsBox (boxElem 1 (0 : ℚ) 1 0 10 0 0) 0 0 0 1 10 0 := by
  unfold Spec.IsBox
  decide +kernel

/-- **C36, what holds (any vertex element).** The value is a lower bound of the x-edges (and z-edges in 3D), i.e.
only edges in y can be shorter than the reported length. -/
theorem smallest_edge_le_partial {F : Type} [Field F] [LinearOrder F] [IsStrictOrderedRing F] (el : Elem F) (s : F)
    (h : el.smallestEdgeSq = .ok s) :
    (∀ j < 2, s ≤ (el.pos.dat 0 0 j 0 - el.pos.dat 0 0 j 1) ^ 2 + (el.pos.dat 1 0 j 0 - el.pos.dat 1 0 j 1) ^ 2
      + (el.pos.dat 2 0 j 0 - el.pos.dat 2 0 j 1) ^ 2) ∧
    (1 < el.pos.lz → (∀ t ∈ Spec.edgesZ el, s ≤ t) ∧
      ∀ j < 2, s ≤ (el.pos.dat 0 1 j 0 - el.pos.dat 0 1 j 1) ^ 2 + (el.pos.dat 1 1 j 0 - el.pos.dat 1 1 j 1) ^ 2
      + (el.pos.dat 2 1 j 0 - el.pos.dat 2 1 j 1) ^ 2) := by
  unfold Elem.smallestEdgeSq at h
  split_ifs at h with h1 h2
  · simp only [Except.ok.injEq] at h
    have hm := minList_le (distSq (el.pt 0 0 0) (el.pt 0 0 1)) [distSq (el.pt 0 0 1) (el.pt 0 1 0),
      distSq (el.pt 0 1 0) (el.pt 0 1 1), distSq (el.pt 0 1 1) (el.pt 0 0 0), distSq (el.pt 1 0 0) (el.pt 1 0 1),
      distSq (el.pt 1 0 1) (el.pt 1 1 0), distSq (el.pt 1 1 0) (el.pt 1 1 1), distSq (el.pt 1 1 1) (el.pt 1 0 0),
      distSq (el.pt 0 0 0) (el.pt 1 0 0), distSq (el.pt 0 0 1) (el.pt 1 0 1), distSq (el.pt 0 1 0) (el.pt 1 1 0),
      distSq (el.pt 0 1 1) (el.pt 1 1 1)]
    rw [h] at hm
    simp only [List.mem_cons, List.not_mem_nil, or_false, forall_eq_or_imp, forall_eq] at hm
    obtain ⟨m0, m1, m2, m3, m4, m5, m6, m7, m8, m9, m10, m11⟩ := hm
    simp only [distSq, Elem.pt] at m0 m2 m4 m6 m8 m9 m10 m11
    refine ⟨?_, fun _ => ⟨?_, ?_⟩⟩
    · intro j hj
      have : j = 0 ∨ j = 1 := by omega
      rcases this with rfl | rfl <;> linarith
    · simp only [Spec.edgesZ, List.mem_cons, List.not_mem_nil, or_false, forall_eq_or_imp, forall_eq]
      refine ⟨?_, ?_, ?_, ?_⟩ <;> linarith
    · intro j hj
      have : j = 0 ∨ j = 1 := by omega
      rcases this with rfl | rfl <;> linarith
  · simp only [Except.ok.injEq] at h
    have hm := minList_le (distSq (el.pt 0 0 0) (el.pt 0 0 1)) [distSq (el.pt 0 0 1) (el.pt 0 1 0),
      distSq (el.pt 0 1 0) (el.pt 0 1 1), distSq (el.pt 0 1 1) (el.pt 0 0 0)]
    rw [h] at hm
    simp only [List.mem_cons, List.not_mem_nil, or_false, forall_eq_or_imp, forall_eq] at hm
    obtain ⟨m0, m1, m2, m3⟩ := hm
    simp only [distSq, Elem.pt] at m0 m2
    refine ⟨?_, fun h => absurd h h2⟩
    intro j hj
    have : j = 0 ∨ j = 1 := by omega
    rcases this with rfl | rfl <;> linarith

example : (boxElem 2 (0 : ℚ) 4 0 2 0 6).smallestEdgeSq = .ok 16 := by decide +kernel

/-- **C36, what holds (3D).** For an axis-parallel brick the value is the smaller of the lengths in x and z, which is right exactly if it is not
greater than the one in y. -/
theorem smallest_edge_box3d_partial {F : Type} [Field F] [LinearOrder F] [IsStrictOrderedRing F] (el : Elem F)
    (x0 y0 z0 hx hy hz : F) (hlx : el.pos.lx = 2) (hly : el.pos.ly = 2) (hlz : el.pos.lz = 2)
    (hb : Spec.IsBox el x0 y0 z0 hx hy hz) (h0 : 0 ≤ hx) (h0y : 0 ≤ hy) (h0z : 0 ≤ hz) :
    el.smallestEdgeSq = .ok ((min hx hz) ^ 2) ∧ (Spec.IsShortestSq el ((min hx hz) ^ 2) ↔ min hx hz ≤ hy) := by
  have h0m : 0 ≤ min hx hz := le_min h0 h0z
  have hsqy : min hx hz ≤ hy ↔ (min hx hz) ^ 2 ≤ hy ^ 2 := (pow_le_pow_iff_left₀ h0m h0y two_ne_zero).symm
  have hsqx : (min hx hz) ^ 2 ≤ hx ^ 2 := by gcongr; exact min_le_left _ _
  have hsqz : (min hx hz) ^ 2 ≤ hz ^ 2 := by gcongr; exact min_le_right _ _
  have hmem : (min hx hz) ^ 2 = hx ^ 2 ∨ (min hx hz) ^ 2 = hz ^ 2 := by
    rcases min_choice hx hz with h | h <;> simp [h]
  have hyy : 0 ≤ hy ^ 2 := by positivity
  have hxx : 0 ≤ hx ^ 2 := by positivity
  rw [hsqy]
  clear hsqy
  generalize (min hx hz) ^ 2 = m at *
  have h000 := hb 0 (by omega) 0 (by omega) 0 (by omega)
  have h001 := hb 0 (by omega) 0 (by omega) 1 (by omega)
  have h010 := hb 0 (by omega) 1 (by omega) 0 (by omega)
  have h011 := hb 0 (by omega) 1 (by omega) 1 (by omega)
  have h100 := hb 1 (by omega) 0 (by omega) 0 (by omega)
  have h101 := hb 1 (by omega) 0 (by omega) 1 (by omega)
  have h110 := hb 1 (by omega) 1 (by omega) 0 (by omega)
  have h111 := hb 1 (by omega) 1 (by omega) 1 (by omega)
  simp only [if_true, Nat.one_ne_zero, if_false] at h000 h001 h010 h011 h100 h101 h110 h111
  have e1 : ∀ a b : F, (a + b - (a + 0)) ^ 2 = b ^ 2 := by intros; ring
  have e2 : ∀ a b : F, (a + 0 - (a + b)) ^ 2 = b ^ 2 := by intros; ring
  have e3 : ∀ a : F, (a - a) ^ 2 = 0 := by intros; ring
  constructor
  · unfold Elem.smallestEdgeSq
    rw [if_neg (by omega)]
    simp only [hlz, gt_iff_lt, Nat.one_lt_ofNat, if_true, Except.ok.injEq]
    apply minList_eq
    · simp only [distSq, Elem.pt, h000, h001, h010, h011, h100, h101, h110, h111, e1, e2, e3, List.mem_cons]
      rcases hmem with h | h
      · left; linarith
      · right; iterate 7 right
        left; linarith
    · simp only [distSq, Elem.pt, h000, h001, h010, h011, h100, h101, h110, h111, e1, e2, e3, List.mem_cons,
        List.not_mem_nil, or_false, forall_eq_or_imp, forall_eq]
      refine ⟨?_, ?_, ?_, ?_, ?_, ?_, ?_, ?_, ?_, ?_, ?_, ?_⟩ <;> linarith
  · unfold Spec.IsShortestSq
    simp only [Spec.edges, hlz, Nat.not_ofNat_le_one, if_false, Spec.edgesLow, Spec.edgesZ, List.mem_cons, List.cons_append,
      List.nil_append, List.not_mem_nil, or_false,
      forall_eq_or_imp, forall_eq, h000, h001, h010, h011, h100, h101, h110, h111, e1, e2, e3]
    constructor
    · rintro ⟨-, -, h, -⟩
      linarith
    · intro hm
      constructor
      · rcases hmem with h | h
        · left; linarith
        · iterate 8 right
          left; linarith
      · refine ⟨?_, ?_, ?_, ?_, ?_, ?_, ?_, ?_, ?_, ?_, ?_, ?_⟩ <;> linarith

example : Spec.IsBox (boxElem 2 (0 : ℚ) 1 0 10 0 3) 0 0 0 1 10 3 := by
  unfold Spec.IsBox
  decide +kernel

end Pymech
