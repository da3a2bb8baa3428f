import Verif.Core.Conn
import Verif.Spec.Mesh
import Mathlib.Data.List.Nodup

namespace Pymech

/-! Helper lemmas on the Python primitives and on record updates. -/

section Trunc
variable {F : Type} [Field F] [LinearOrder F] [IsStrictOrderedRing F] [FloorRing F]

@[simp] theorem trunc_intCast (n : Int) : trunc (n : F) = n := by
  unfold trunc
  split <;> simp

@[simp] theorem trunc_natCast (n : Nat) : trunc (n : F) = n := by
  have := trunc_intCast (F := F) n
  simpa using this

@[simp] theorem trunc_zero : trunc (0 : F) = 0 := by
  have := trunc_intCast (F := F) 0
  simpa using this

theorem trunc_add_int (x : F) (n : Int) (hx : 0 ≤ x) (hxn : 0 ≤ x + n) : trunc (x + (n : F)) = trunc x + n := by
  unfold trunc
  rw [if_pos hx, if_pos hxn, Int.floor_add_intCast]

end Trunc

theorem nE_ne_nP : nE ≠ nP := by decide
theorem nP_ne_nE : nP ≠ nE := by decide
theorem nE_ne_nil : nE ≠ [] := by decide
theorem nP_ne_nil : nP ≠ [] := by decide

theorem pyIndex_nat {n i : Nat} (h : i < n) : pyIndex n (i : Int) = .ok i := by
  unfold pyIndex
  have h0 : (0 : Int) ≤ i := by omega
  have h1 : (i : Int) < n := by omega
  simp [h1]

theorem pyIndex_ok_iff {n : Nat} {i : Int} {k : Nat} :
    pyIndex n i = .ok k ↔ k < n ∧ ((i = k) ∨ (i = (k : Int) - n)) := by
  unfold pyIndex
  split_ifs <;> simp <;> omega

@[simp] theorem mem_prod2 {a b : List Nat} {x : Nat × Nat} : x ∈ prod2 a b ↔ x.1 ∈ a ∧ x.2 ∈ b := by
  obtain ⟨i, j⟩ := x
  simp [prod2]

@[simp] theorem mem_prod3 {a b c : List Nat} {x : Nat × Nat × Nat} :
    x ∈ prod3 a b c ↔ x.1 ∈ a ∧ x.2.1 ∈ b ∧ x.2.2 ∈ c := by
  obtain ⟨i, j, k⟩ := x
  simp [prod3]

theorem nodup_prod2 {a b : List Nat} (ha : a.Nodup) (hb : b.Nodup) : (prod2 a b).Nodup := by
  unfold prod2
  rw [List.nodup_flatMap]
  refine ⟨fun i _ => ?_, ?_⟩
  · exact hb.map (fun _ _ h => by simpa using h)
  · refine ha.imp fun {i j} hij => ?_
    simp only [Function.onFun, List.disjoint_left, List.mem_map, not_exists, not_and]
    rintro x ⟨_, _, rfl⟩ _ _ h
    exact hij (by simpa using (congrArg Prod.fst h).symm)

/-! ### Loops -/

theorem foldlM_anyErr {α : Type} {body : α → Py Bool} {l : List α} {e0 r : Bool} :
    l.foldlM (fun err x => do let e ← body x; pure (err || e)) e0 = .ok r →
      (r = false ↔ (e0 = false ∧ ∀ x ∈ l, body x = .ok false)) := by
  induction l generalizing e0 with
  | nil =>
    intro h
    simp only [List.foldlM_nil] at h
    cases h
    simp
  | cons a l ih =>
    intro h
    simp only [List.foldlM_cons] at h
    cases hb : body a with
    | error e => rw [hb] at h; cases h
    | ok b =>
      rw [hb] at h
      have := ih (e0 := e0 || b) h
      rw [this]
      cases b <;> cases e0 <;> simp [hb]

theorem anyErr_eq_false_iff {α : Type} {body : α → Py Bool} {l : List α} :
    anyErr body l = .ok false ↔ ∀ x ∈ l, body x = .ok false := by
  constructor
  · intro h
    exact ((foldlM_anyErr h).1 rfl).2
  · intro h
    unfold anyErr
    induction l with
    | nil => rfl
    | cons a l ih =>
      simp only [List.foldlM_cons]
      rw [h a (by simp)]
      exact ih fun x hx => h x (by simp [hx])

/-- If the body raises nowhere the loop does not raise. -/
theorem anyErr_ok {α : Type} {body : α → Py Bool} {l : List α} (h : ∀ x ∈ l, ∃ b, body x = .ok b) :
    ∃ r, anyErr body l = .ok r := by
  unfold anyErr
  generalize false = e0
  induction l generalizing e0 with
  | nil => exact ⟨e0, rfl⟩
  | cons a l ih =>
    obtain ⟨b, hb⟩ := h a (by simp)
    simp only [List.foldlM_cons, hb]
    exact ih (fun x hx => h x (by simp [hx])) (e0 || b)

/-- Invariant rule for `foldlM` in `Py` loops that never raise under the invariant. -/
theorem foldlM_inv {α σ : Type} {f : σ → α → Py σ} (I : List α → σ → Prop) (l : List α) (s : σ)
    (h0 : I l s) (hstep : ∀ a r s, a :: r <:+ l → I (a :: r) s → ∃ s', f s a = .ok s' ∧ I r s') :
    ∃ s', l.foldlM f s = .ok s' ∧ I [] s' := by
  induction l generalizing s with
  | nil => exact ⟨s, rfl, h0⟩
  | cons a l ih =>
    obtain ⟨s', hs, hI⟩ := hstep a l s (List.suffix_refl _) h0
    simp only [List.foldlM_cons, hs]
    exact ih s' hI fun a r s hsuf h => hstep a r s (hsuf.trans (List.suffix_cons _ _)) h

/-! ### Record updates -/

section Upd
variable {F : Type}

@[simp] theorem HexaData.modBC_length (M : HexaData F) (i b f : Nat) (g : BC F → BC F) :
    (M.modBC i b f g).elem.length = M.elem.length := by simp [HexaData.modBC]

@[simp] theorem HexaData.modBC_nbc (M : HexaData F) (i b f : Nat) (g : BC F → BC F) :
    (M.modBC i b f g).nbc = M.nbc := rfl
@[simp] theorem HexaData.modBC_ndim (M : HexaData F) (i b f : Nat) (g : BC F → BC F) :
    (M.modBC i b f g).ndim = M.ndim := rfl
@[simp] theorem HexaData.modBC_nel (M : HexaData F) (i b f : Nat) (g : BC F → BC F) :
    (M.modBC i b f g).nel = M.nel := rfl
@[simp] theorem HexaData.modBC_elmap (M : HexaData F) (i b f : Nat) (g : BC F → BC F) :
    (M.modBC i b f g).elmap = M.elmap := rfl
@[simp] theorem HexaData.modBC_ncurv (M : HexaData F) (i b f : Nat) (g : BC F → BC F) :
    (M.modBC i b f g).ncurv = M.ncurv := rfl

variable [Zero F]

theorem HexaData.el_modBC (M : HexaData F) (i b f : Nat) (g : BC F → BC F) (i' : Nat) (h : i' < M.elem.length) :
    (M.modBC i b f g).el i' = if i' = i then (M.el i').modBC b f g else M.el i' := by
  unfold HexaData.el HexaData.modBC
  simp only [List.getD_eq_getElem?_getD, List.getElem?_modify]
  by_cases hi : i = i'
  · subst hi
    simp [h]
  · simp [hi, Ne.symm hi]

theorem HexaData.bc_modBC (M : HexaData F) (i b f : Nat) (g : BC F → BC F) (i' b' f' : Nat)
    (h : i' < M.elem.length) :
    (M.modBC i b f g).bc i' b' f' =
      if i' = i ∧ b' = b ∧ f' = f then g (M.bc i' b' f') else M.bc i' b' f' := by
  unfold HexaData.bc
  rw [M.el_modBC i b f g i' h]
  by_cases hi : i' = i
  · simp [hi, Elem.modBC]
  · simp [hi]

theorem HexaData.el_eq_getElem (M : HexaData F) (i : Nat) (h : i < M.elem.length) : M.el i = M.elem[i] := by
  simp [HexaData.el, List.getD_eq_getElem?_getD, h]

theorem HexaData.el_mem (M : HexaData F) (i : Nat) (h : i < M.elem.length) : M.el i ∈ M.elem := by
  rw [M.el_eq_getElem i h]; exact List.getElem_mem h

end Upd

end Pymech
