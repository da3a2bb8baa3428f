import Verif.Props.Generate
import Verif.Props.Check
import Verif.Samples

/-!
# C130: `generate_internal_bcs` and conditions of the other fields
-/

set_option autoImplicit false

namespace Pymech

open Spec

variable {F : Type} [Field F] [LinearOrder F] [IsStrictOrderedRing F] [FloorRing F]

namespace Spec

/-- All conditions of `M`, of any field, are still there in `M'`. -/
def KeepsConditions (M M' : HexaData F) : Prop :=
  ∀ b < M.nbc, ∀ x : Face, x.1 < M.elem.length → x.2 < 2 * M.ndim → (M.bc x.1 b x.2).typ ≠ [] → M'.bc x.1 b x.2 = M.bc x.1 b x.2

end Spec

/-- **C130, what is lost.** A condition changes only if its face has none in the first field and is connected to another face, in all fields. -/
theorem C130_lost (M : HexaData F) (hw : WF M) (hg : Grid M) (hb : 0 < M.nbc) (hp : ScalesPos M) (tol : F) (M' : HexaData F) (n : Nat)
    (h : generateInternalBcs M tol = .ok (M', n)) (b : Nat) (x : Face) (hx : x.1 < M.elem.length)
    (hne : M'.bc x.1 b x.2 ≠ M.bc x.1 b x.2) :
    (M.bc x.1 0 x.2).typ = [] ∧ ∃ y : Face, y.1 < M.elem.length ∧ y.1 ≠ x.1 ∧ (M.bc y.1 0 y.2).typ = [] ∧ Near M tol x y ∧
      ∀ c < M.nbc, (M'.bc x.1 c x.2).typ = nE ∧ PointsTo (M'.bc x.1 c x.2) y ∧ (M'.bc y.1 c y.2).typ = nE ∧ PointsTo (M'.bc y.1 c y.2) x := by
  obtain ⟨M2, n2, hs, h1, h2, -⟩ := generate_internal_bcs_spec M hw hg hb hp tol
  rw [h] at h1
  injection h1 with e
  obtain ⟨rfl, rfl⟩ := Prod.mk.inj e
  have hm : x ∈ members hs := by
    by_contra hm
    exact hne (h2.other x hx hm b)
  obtain ⟨p, hpm, hq⟩ := List.mem_flatMap.1 hm
  obtain ⟨a1, a2, a3, a4, a5, a6, a7⟩ := h2.pair p hpm
  simp only [List.mem_cons, List.not_mem_nil, or_false] at hq
  rcases hq with rfl | rfl
  · refine ⟨a5, p.2, a2, by omega, a6, a7, fun c hc => ?_⟩
    obtain ⟨l1, l2⟩ := h2.link p hpm c hc
    rw [l1, l2]
    exact ⟨rfl, linked_pointsTo _ _ _, rfl, linked_pointsTo _ _ _⟩
  · refine ⟨a6, p.1, by omega, by omega, a5, near_symm a7, fun c hc => ?_⟩
    obtain ⟨l1, l2⟩ := h2.link p hpm c hc
    rw [l1, l2]
    exact ⟨rfl, linked_pointsTo _ _ _, rfl, linked_pointsTo _ _ _⟩

/-- **C130, what holds**: if a face without condition in the first field has none in the others, then no condition is overwritten. Missing: only
the first field is looked at. -/
theorem C130_partial (M : HexaData F) (hw : WF M) (hg : Grid M) (hb : 0 < M.nbc) (hp : ScalesPos M) (tol : F)
    (hf : ∀ b < M.nbc, ∀ x : Face, x.1 < M.elem.length → x.2 < 2 * M.ndim → (M.bc x.1 0 x.2).typ = [] → (M.bc x.1 b x.2).typ = []) :
    ∃ M' n, generateInternalBcs M tol = .ok (M', n) ∧ KeepsConditions M M' := by
  obtain ⟨M', n, hs, h1, -⟩ := generate_internal_bcs_spec M hw hg hb hp tol
  refine ⟨M', n, h1, fun b hb' x hx hx2 ht => ?_⟩
  by_contra hne
  exact ht (hf b hb' x hx hx2 (C130_lost M hw hg hb hp tol M' n h1 b x hx hne).1)

namespace Samples

/-- Two elements side by side with two fields, without internal conditions, and with `t` on the face between them in the second field. -/
def halfSet (t : Name) : HexaData ℚ :=
  (get (genBox .little 2 1 0 2 0 1 ⟨2, 2, 1, 1, 0⟩ (some [['W'], ['W']]) (some [['W'], ['W']]) (some [['W'], ['W']]) (some [['W'], ['W']]) false)).modBC 0 1 1
    fun r => { r with typ := t, own := 1, ownFace := 2, p3 := 2, p4 := 2 }

/-- As above, periodic in the second field from the face between the elements to the side. -/
def halfP : HexaData ℚ := (halfSet nP).modBC 1 1 1 fun r => { r with typ := nP, own := 2, ownFace := 2, p3 := 1, p4 := 2 }

end Samples

/-- **C130 is false**: only the first field is looked at, and a temperature condition on a face without velocity condition is overwritten. -/
theorem C130_false : ∃ (M M' : HexaData ℚ) (n : Nat), WF M ∧ Grid M ∧ generateInternalBcs M (1 / 1000) = .ok (M', n) ∧
    (M.bc 0 1 1).typ = ['t'] ∧ (M'.bc 0 1 1).typ = nE ∧ ¬ KeepsConditions M M' := by
  have h : (match generateInternalBcs (Samples.halfSet ['t']) (1 / 1000) with
    | .ok (M', _) => decide ((M'.bc 0 1 1).typ = nE) | .error _ => false) = true := by decide +kernel
  have h0 : ((Samples.halfSet ['t']).bc 0 1 1).typ = ['t'] := by decide +kernel
  revert h
  rcases hg : generateInternalBcs (Samples.halfSet ['t']) (1 / 1000) with e | ⟨M', n⟩
  · intro h
    cases h
  · intro h
    have h1 := of_decide_eq_true h
    refine ⟨_, M', n, Samples.wf_of_wfB _ (by decide +kernel), Samples.grid_of_gridB _ (by decide +kernel), hg, h0, h1, fun hk => ?_⟩
    have := hk 1 (by decide +kernel) (0, 1) (by decide +kernel) (by decide +kernel) (by dsimp only; rw [h0]; decide)
    dsimp only at this
    rw [this, h0] at h1
    exact absurd h1 (by decide)

/-- **C130 is false, and so is validity**: a valid mesh with two fields becomes invalid, because one of two periodic faces is overwritten. -/
theorem C130_invalid : ∃ (M M' : HexaData ℚ) (n : Nat), WF M ∧ Grid M ∧ Valid M (fun _ _ => True) ∧
    generateInternalBcs M (1 / 1000) = .ok (M', n) ∧ ¬ Valid M' fun _ _ => True := by
  have h : (match generateInternalBcs Samples.halfP (1 / 1000) with
    | .ok (M', _) => decide ((M'.bc 1 1 1).typ = nP ∧ (M'.bc 0 1 1).typ = nE ∧ (trunc (M'.bc 1 1 1).p3 = ((0 : Nat) : Int) + 1 ∧ trunc (M'.bc 1 1 1).p4 = ((1 : Nat) : Int) + 1) ∧ 1 < M'.nbc ∧ 1 < M'.elem.length ∧ 1 < M'.ndim)
    | .error _ => false) = true := by decide +kernel
  revert h
  rcases hg : generateInternalBcs Samples.halfP (1 / 1000) with e | ⟨M', n⟩
  · intro h
    cases h
  · intro h
    obtain ⟨h1, h2, h3, h4, h5, h6⟩ := of_decide_eq_true h
    refine ⟨_, M', n, Samples.wf_of_wfB _ (by decide +kernel), Samples.grid_of_gridB _ (by decide +kernel), Samples.valid_of_validB _ (by decide +kernel), hg,
      fun hv => ?_⟩
    obtain ⟨y, y1, y2, y3, y4, y5, -⟩ := hv 1 h4 (1, 1) h5 (by dsimp only; omega) (.inr h1)
    have h3' : PointsTo (M'.bc 1 1 1) (0, 1) := h3
    obtain rfl := pointsTo_unique y3 h3'
    dsimp only at y4
    rw [h1, h2] at y4
    exact absurd y4 (by decide)

/-- The hypotheses of `C130_partial` are met by two elements with two fields. -/
example : ∃ M' n, generateInternalBcs (Samples.halfSet []) (1 / 1000) = .ok (M', n) ∧ KeepsConditions (Samples.halfSet []) M' := by
  refine C130_partial _ (Samples.wf_of_wfB _ (by decide +kernel)) (Samples.grid_of_gridB _ (by decide +kernel)) (by decide +kernel) ?_ _ ?_
  · have : ∀ e < (Samples.halfSet []).elem.length, ((Samples.halfSet []).el e).smallestEdgeSq = .ok 1 := by decide +kernel
    exact fun e he => ⟨1, this e he, by norm_num⟩
  · have : ∀ b < (Samples.halfSet []).nbc, ∀ e < (Samples.halfSet []).elem.length, ∀ f < 2 * (Samples.halfSet []).ndim,
      ((Samples.halfSet []).bc e 0 f).typ = [] → ((Samples.halfSet []).bc e b f).typ = [] := by decide +kernel
    exact fun b hb x hx hx2 => this b hb x.1 hx x.2 hx2

end Pymech
