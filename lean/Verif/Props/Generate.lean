import Verif.Props.Delete
import Verif.Props.Merge
import Verif.Props.Lims

/-!
# C53–C55 `generate_internal_bcs`
-/

set_option linter.unusedSectionVars false

namespace Pymech

open Spec

variable {F : Type} [Field F] [LinearOrder F] [IsStrictOrderedRing F] [FloorRing F]

/-- Invariant rule for a loop: `I` speaks about the processed prefix. -/
theorem foldl_inv_pre {α σ : Type} {f : σ → α → σ} (I : List α → σ → Prop) (l : List α) (s : σ) (h0 : I [] s)
    (hstep : ∀ p a r s, p ++ a :: r = l → I p s → I (p ++ [a]) (f s a)) : I l (l.foldl f s) := by
  suffices H : ∀ r p s, p ++ r = l → I p s → I l (r.foldl f s) from H l [] s rfl h0
  intro r
  induction r with
  | nil => intro p s hp h; rw [List.append_nil] at hp; subst hp; exact h
  | cons a r ih =>
    intro p s hp h
    exact ih (p ++ [a]) (f s a) (by simpa using hp) (hstep p a r s hp h)

namespace Spec

/-- The record `r` of face `x` after it has been connected to face `y`. -/
def linked (x y : Face) (r : BC F) : BC F :=
  { r with typ := nE, own := (x.1 : Int) + 1, ownFace := (x.2 : Int) + 1, p3 := (((y.1 : Int) + 1 : Int) : F),
           p4 := (((y.2 : Int) + 1 : Int) : F) }

/-- All faces occurring in a list of pairs. -/
def members (hs : List (Face × Face)) : List Face := hs.flatMap fun p => [p.1, p.2]

/-- A face without a condition in the first field. -/
def Free (M : HexaData F) (x : Face) : Prop := (M.bc x.1 0 x.2).typ = []

/-- `M'` is `M` with the pairs of faces `hs` connected, and nothing else changed: the pairs consist of `2 n` different
free faces, the two faces of a pair belong to different elements and satisfy `C`. -/
structure ConnectedPairs (M : HexaData F) (C : Face → Face → Prop) (hs : List (Face × Face)) (M' : HexaData F) : Prop where
  hdr : M' = { M with elem := M'.elem }
  len : M'.elem.length = M.elem.length
  el : ∀ i < M.elem.length, M'.el i = { M.el i with bcs := (M'.el i).bcs }
  pair : ∀ p ∈ hs, p.1.1 < p.2.1 ∧ p.2.1 < M.elem.length ∧ p.1.2 < 2 * M.ndim ∧ p.2.2 < 2 * M.ndim ∧
    Free M p.1 ∧ Free M p.2 ∧ C p.1 p.2
  nodup : (members hs).Nodup
  link : ∀ p ∈ hs, ∀ b < M.nbc, M'.bc p.1.1 b p.1.2 = linked p.1 p.2 (M.bc p.1.1 b p.1.2) ∧
    M'.bc p.2.1 b p.2.2 = linked p.2 p.1 (M.bc p.2.1 b p.2.2)
  other : ∀ x : Face, x.1 < M.elem.length → x ∉ members hs → ∀ b, M'.bc x.1 b x.2 = M.bc x.1 b x.2

end Spec

theorem bc_connectFull (M : HexaData F) (k : Nat) (x0 x1 : Face) (i b f : Nat) (hi : i < M.elem.length) (hne : x0 ≠ x1) :
    (M.connectFull k x0.1 x0.2 x1.1 x1.2).bc i b f =
      if b = k then (if (i, f) = x1 then linked x1 x0 (M.bc i b f) else if (i, f) = x0 then linked x0 x1 (M.bc i b f)
        else M.bc i b f) else M.bc i b f := by
  unfold HexaData.connectFull
  rw [HexaData.bc_modBC _ _ _ _ _ _ _ _ (by simpa using hi), HexaData.bc_modBC _ _ _ _ _ _ _ _ hi]
  obtain ⟨e0, f0⟩ := x0
  obtain ⟨e1, f1⟩ := x1
  simp only [Prod.mk.injEq]
  by_cases hb : b = k
  · subst hb
    by_cases h1 : i = e1 ∧ f = f1
    · obtain ⟨rfl, rfl⟩ := h1
      have : ¬ (i = e0 ∧ f = f0) := by
        rintro ⟨rfl, rfl⟩; exact hne rfl
      simp [this, linked]
    · by_cases h0 : i = e0 ∧ f = f0
      · obtain ⟨rfl, rfl⟩ := h0; simp [h1, linked]
      · simp only [h0, h1, if_false, true_and]
        have a1 : ¬ (i = e1 ∧ b = b ∧ f = f1) := fun h => h1 ⟨h.1, h.2.2⟩
        have a0 : ¬ (i = e0 ∧ b = b ∧ f = f0) := fun h => h0 ⟨h.1, h.2.2⟩
        simp_all
  · simp [hb]

theorem connectFull_fields (M : HexaData F) (nbc : Nat) (x0 x1 : Face) (hne : x0 ≠ x1) :
    let M' := (List.range nbc).foldl (fun M ibc => M.connectFull ibc x0.1 x0.2 x1.1 x1.2) M
    Frame M M' ∧ ∀ i < M.elem.length, ∀ b f, M'.bc i b f =
      if b < nbc then (if (i, f) = x1 then linked x1 x0 (M.bc i b f) else if (i, f) = x0 then linked x0 x1 (M.bc i b f)
        else M.bc i b f) else M.bc i b f := by
  intro M'
  refine ⟨Frame.foldl (fun M k => (Frame.modBC _ _ _ _ _).trans (Frame.modBC _ _ _ _ _)) _ _, ?_⟩
  intro i hi b f
  refine (foldl_fields (N := M.elem.length) (G := fun x r => if x = x1 then linked x1 x0 r else if x = x0 then linked x0 x1 r else r)
    ?_ ?_ nbc M rfl i b f hi).2
  · intro M k; simp [HexaData.connectFull]
  · intro M1 k i b f hM hi
    exact bc_connectFull M1 k x0 x1 i b f (hM ▸ hi) hne

/-- Invariant of the main loop after the faces in `done`. -/
structure GInv (M : HexaData F) (close : Nat → Nat → Nat → Nat → Bool) (done : List Face) (s : GenState F)
    (hs : List (Face × Face)) : Prop where
  con : ConnectedPairs M (fun x y => close x.1 x.2 y.1 y.2 = true) hs s.mesh
  n : s.n = hs.length * M.nbc
  lc : ∀ x : Face, s.lc x.1 x.2 = true ↔ ¬ Free M x ∨ x ∈ members hs
  max : ∀ x ∈ done, s.lc x.1 x.2 = false → ∀ y : Face, x.1 < y.1 → y.1 < M.elem.length → y.2 < 2 * M.ndim →
    s.lc y.1 y.2 = false → close x.1 x.2 y.1 y.2 = false

theorem members_append (hs : List (Face × Face)) (p : Face × Face) : members (hs ++ [p]) = members hs ++ [p.1, p.2] := by
  simp [members]

theorem GInv.step {M : HexaData F} {close : Nat → Nat → Nat → Nat → Bool} {done : List Face} {s : GenState F}
    {hs : List (Face × Face)} (hw : WF M) (x : Face) (hx : x.1 < M.elem.length) (hx2 : x.2 < 2 * M.ndim)
    (I : GInv M close done s hs) :
    ∃ hs', GInv M close (done ++ [x]) (genStep close M.nel (2 * M.ndim) s x) hs' := by
  obtain ⟨e1, f1⟩ := x
  unfold genStep
  by_cases hl : s.lc e1 f1 = true
  · simp only [hl, if_true]
    refine ⟨hs, I.con, I.n, I.lc, ?_⟩
    intro x hxm hxl
    rcases List.mem_append.1 hxm with h | h
    · exact I.max x h hxl
    · simp at h; subst h; simp [hl] at hxl
  · simp only [hl, if_false, Bool.false_eq_true]
    cases hfind : (prod2 (List.range' (e1 + 1) (M.nel - (e1 + 1))) (List.range (2 * M.ndim))).find?
        (fun u => !s.lc u.1 u.2 && close e1 f1 u.1 u.2) with
    | none =>
      simp only
      refine ⟨hs, I.con, I.n, I.lc, ?_⟩
      intro x hxm hxl y hy1 hy2 hy3 hyl
      rcases List.mem_append.1 hxm with h | h
      · exact I.max x h hxl y hy1 hy2 hy3 hyl
      · simp at h; subst h
        rw [List.find?_eq_none] at hfind
        have := hfind y (by
          rw [mem_prod2, List.mem_range'_1, List.mem_range]
          have := hw.nel
          simp only at hy1
          exact ⟨⟨by omega, by omega⟩, hy3⟩)
        simpa [hyl] using this
    | some u =>
      obtain ⟨e2, f2⟩ := u
      have hmem := List.mem_of_find?_eq_some hfind
      have hp := List.find?_some hfind
      rw [mem_prod2, List.mem_range'_1, List.mem_range] at hmem
      simp only [Bool.and_eq_true, Bool.not_eq_true'] at hp
      have hwn := hw.nel
      have hnb : s.mesh.nbc = M.nbc := by rw [I.con.hdr]
      have hne : ((e1, f1) : Face) ≠ (e2, f2) := by
        intro h; simp at h; simp only at hmem; omega
      have hl0 : s.lc e1 f1 = false := by simpa using hl
      have n1 : ¬ (¬ Free M (e1, f1) ∨ (e1, f1) ∈ members hs) := fun h => by
        have := (I.lc (e1, f1)).2 h; simp [hl0] at this
      have n2 : ¬ (¬ Free M (e2, f2) ∨ (e2, f2) ∈ members hs) := fun h => by
        have := (I.lc (e2, f2)).2 h; simp [hp.1] at this
      push Not at n1 n2
      have CF := connectFull_fields s.mesh s.mesh.nbc (e1, f1) (e2, f2) hne
      simp only at CF
      obtain ⟨cf1, cf2⟩ := CF
      have hsl := I.con.len
      have F0 : Frame M s.mesh := ⟨I.con.hdr, I.con.len, I.con.el⟩
      have F1 := F0.trans cf1
      refine ⟨hs ++ [((e1, f1), (e2, f2))], ⟨F1.hdr, F1.len, F1.el, ?_, ?_, ?_, ?_⟩, ?_, ?_, ?_⟩
      · intro p hpm
        rcases List.mem_append.1 hpm with h | h
        · exact I.con.pair p h
        · simp at h; subst h
          simp only at hmem hx hx2 ⊢
          exact ⟨by omega, by omega, hx2, hmem.2, n1.1, n2.1, hp.2⟩
      · rw [members_append]
        rw [List.nodup_append]
        refine ⟨I.con.nodup, by simp [hne], ?_⟩
        intro a ha b hb hab
        subst hab
        simp at hb
        rcases hb with rfl | rfl
        · exact n1.2 ha
        · exact n2.2 ha
      · intro p hpm b hb
        rcases List.mem_append.1 hpm with h | h
        · have hi := I.con.pair p h
          have m1 : p.1 ∈ members hs := List.mem_flatMap.2 ⟨p, h, by simp⟩
          have m2 : p.2 ∈ members hs := List.mem_flatMap.2 ⟨p, h, by simp⟩
          have q1 : ∀ q ∈ members hs, q ≠ (e1, f1) ∧ q ≠ (e2, f2) := fun q hq =>
            ⟨fun e => n1.2 (e ▸ hq), fun e => n2.2 (e ▸ hq)⟩
          rw [cf2 p.1.1 (by rw [hsl]; omega) b p.1.2, cf2 p.2.1 (by rw [hsl]; omega) b p.2.2]
          rw [if_neg (q1 p.1 m1).1, if_neg (q1 p.1 m1).2, if_neg (q1 p.2 m2).1, if_neg (q1 p.2 m2).2]
          simp only [ite_self]
          exact I.con.link p h b hb
        · simp at h; subst h
          simp only at hmem hx ⊢
          rw [cf2 e1 (by rw [hsl]; omega) b f1, cf2 e2 (by rw [hsl]; omega) b f2, hnb, if_pos hb, if_pos hb, if_neg hne,
            if_pos rfl, if_pos rfl]
          have o1 := I.con.other (e1, f1) hx n1.2 b
          have o2 := I.con.other (e2, f2) (by simp only; omega) n2.2 b
          simp only at o1 o2
          rw [o1, o2]
          exact ⟨rfl, rfl⟩
      · intro x hx' hxm b
        rw [members_append] at hxm
        simp only [List.mem_append, List.mem_cons, List.not_mem_nil, or_false, not_or] at hxm
        rw [cf2 x.1 (by rw [hsl]; exact hx') b x.2, if_neg hxm.2.1, if_neg hxm.2.2, ite_self]
        exact I.con.other x hx' hxm.1 b
      · simp only [List.length_append, List.length_cons, List.length_nil]
        rw [I.n, hnb]; ring
      · intro x
        rw [members_append]
        have := I.lc x
        obtain ⟨a, c⟩ := x
        simp only [Bool.or_eq_true, List.mem_append, List.mem_cons, List.not_mem_nil, or_false, Prod.mk.injEq,
          Bool.and_eq_true, beq_iff_eq] at this ⊢
        rw [this]; tauto
      · intro x hxm hxl y hy1 hy2 hy3 hyl
        simp only [Bool.or_eq_false_iff] at hxl hyl
        rcases List.mem_append.1 hxm with h | h
        · exact I.max x h hxl.1.1 y hy1 hy2 hy3 hyl.1.1
        · simp at h; subst h
          simp at hxl

theorem generateWith_inv (M : HexaData F) (hw : WF M) (close : Nat → Nat → Nat → Nat → Bool) :
    ∃ s hs, generateWith close M = (s.mesh, s.n) ∧
      GInv M close (prod2 (List.range M.nel) (List.range (2 * M.ndim))) s hs := by
  have := foldl_inv_pre (f := genStep close M.nel (2 * M.ndim)) (fun done s => ∃ hs, GInv M close done s hs)
    (prod2 (List.range M.nel) (List.range (2 * M.ndim))) ⟨M, fun e f => decide ((M.bc e 0 f).typ ≠ []), 0⟩ ?_ ?_
  · obtain ⟨hs, h⟩ := this
    exact ⟨_, hs, rfl, h⟩
  · refine ⟨[], ⟨rfl, rfl, fun _ _ => rfl, by simp, by simp [members], by simp, fun _ _ _ _ => rfl⟩, by simp, ?_, by simp⟩
    intro x; simp [Free, members]
  · rintro p a r s hl ⟨hs, I⟩
    have ha : a ∈ prod2 (List.range M.nel) (List.range (2 * M.ndim)) := by rw [← hl]; simp
    rw [mem_prod2, List.mem_range, List.mem_range, hw.nel] at ha
    exact I.step hw a ha.1 ha.2

namespace Spec

/-- The length scale of every element is defined and positive. -/
def ScalesPos (M : HexaData F) : Prop := ∀ e < M.elem.length, ∃ s, (M.el e).smallestEdgeSq = .ok s ∧ 0 < s

end Spec

theorem mapM_error {α β : Type} (l : List α) (g : α → Py β) (err : PyErr) (hg : ∀ x ∈ l, (∃ y, g x = .ok y) ∨ g x = .error err)
    (he : ∃ x ∈ l, g x = .error err) : l.mapM g = .error err := by
  induction l with
  | nil => simp at he
  | cons a l ih =>
    rw [List.mapM_cons]
    rcases hg a (by simp) with ⟨y, h⟩ | h
    · rw [h]
      obtain ⟨x, hx, hxe⟩ := he
      rcases List.mem_cons.1 hx with rfl | hx
      · rw [h] at hxe; cases hxe
      · have := ih (fun x hx => hg x (by simp [hx])) ⟨x, hx, hxe⟩
        simp [this, Bind.bind, Except.bind]
    · rw [h]; rfl

theorem mem_elem_el (M : HexaData F) {el : Elem F} (h : el ∈ M.elem) : ∃ e < M.elem.length, el = M.el e := by
  obtain ⟨e, he, rfl⟩ := List.getElem_of_mem h
  exact ⟨e, he, (M.el_eq_getElem e he).symm⟩

/-- The function does not raise and is the loop `generateWith` with a test that says whether the faces are near. -/
theorem generate_ok (M : HexaData F) (hw : WF M) (hg : Grid M) (hb : 0 < M.nbc) (hp : ScalesPos M) (tol : F) :
    ∃ close, generateInternalBcs M tol = .ok (generateWith close M) ∧
      ∀ x y : Face, x.1 < M.elem.length → x.2 < 2 * M.ndim → y.1 < M.elem.length → y.2 < 2 * M.ndim →
        (close x.1 x.2 y.1 y.2 = true ↔ Near M tol x y) := by
  have hd : 2 * M.ndim ≤ 6 := by rcases hw.dim with h | h <;> omega
  refine ⟨fun e1 f1 e2 f2 => Py.getD (closeFaces (M.el e1) f1 (M.el e2) f2 tol) false, ?_, ?_⟩
  · unfold generateInternalBcs
    obtain ⟨r1, h1, _⟩ := mapM_ok' M.elem scaleSq (fun el hel => by
      obtain ⟨e, he, rfl⟩ := mem_elem_el M hel
      obtain ⟨s, hs, h0⟩ := hp e he
      exact ⟨s, by simp [scaleSq, hs, Bind.bind, Except.bind, not_le.2 h0, pure, Except.pure]⟩)
    obtain ⟨r2, h2, _⟩ := mapM_ok' M.elem (fun el => (List.range (2 * M.ndim)).mapM fun f : Nat => do
        let c ← el.faceCenter f
        let _ ← el.bcAt 0 f
        pure c) (fun el hel => by
      obtain ⟨e, he, rfl⟩ := mem_elem_el M hel
      have hge := hg _ hel
      obtain ⟨r, hr, _⟩ := mapM_ok' (List.range (2 * M.ndim)) (fun f : Nat => do
        let c ← (M.el e).faceCenter f
        let _ ← (M.el e).bcAt 0 f
        pure c) (fun f hf => by
          rw [List.mem_range] at hf
          rw [face_center_eq_mean (M.el e) f (by omega) (by omega) (by omega) (by omega), bcAt_ok M hw e 0 f he hb (by omega)]
          exact ⟨_, rfl⟩)
      exact ⟨r, hr⟩)
    rw [h1, h2]
    rfl
  · intro x y h1 h2 h3 h4
    obtain ⟨⟨b, h⟩, h'⟩ := closeFaces_near M hg tol x y h1 (by omega) h3 (by omega)
    rw [← h']
    simp only [h, Py.getD, Except.ok.injEq]

/-- **C53.** `generate_internal_bcs` connects pairs of free faces of distinct elements that are within the tolerance,
each face at most once, in all fields; changes nothing else; and returns the number of pairs times the number of
fields. -/
theorem generate_internal_bcs_spec (M : HexaData F) (hw : WF M) (hg : Grid M) (hb : 0 < M.nbc) (hp : ScalesPos M) (tol : F) :
    ∃ M' n hs, generateInternalBcs M tol = .ok (M', n) ∧ ConnectedPairs M (Near M tol) hs M' ∧ n = hs.length * M.nbc := by
  obtain ⟨close, h1, h2⟩ := generate_ok M hw hg hb hp tol
  obtain ⟨s, hs, h3, I⟩ := generateWith_inv M hw close
  refine ⟨s.mesh, s.n, hs, by rw [h1, h3], ⟨I.con.hdr, I.con.len, I.con.el, ?_, I.con.nodup, I.con.link, I.con.other⟩, I.n⟩
  intro p hpm
  obtain ⟨a1, a2, a3, a4, a5, a6, a7⟩ := I.con.pair p hpm
  exact ⟨a1, a2, a3, a4, a5, a6, (h2 p.1 p.2 (by omega) a3 a2 a4).1 a7⟩

/-- A face that had a condition in the first field keeps its conditions. -/
theorem Spec.ConnectedPairs.keeps {M M' : HexaData F} {C : Face → Face → Prop} {hs : List (Face × Face)} (h : ConnectedPairs M C hs M')
    (x : Face) (hx : x.1 < M.elem.length) (hf : ¬ Free M x) (b : Nat) : M'.bc x.1 b x.2 = M.bc x.1 b x.2 := by
  refine h.other x hx (fun hm => hf ?_) b
  obtain ⟨p, hp, hq⟩ := List.mem_flatMap.1 hm
  have := h.pair p hp
  simp at hq
  rcases hq with rfl | rfl
  · exact this.2.2.2.2.1
  · exact this.2.2.2.2.2.1

theorem linked_pointsTo (x y : Face) (r : BC F) : PointsTo (linked x y r) y := by
  constructor <;> simp only [linked, trunc_intCast]

/-- Connecting pairs of unlinked faces keeps the connectivity valid. -/
theorem Spec.ConnectedPairs.valid {M M' : HexaData F} {C D : Face → Face → Prop} {hs : List (Face × Face)}
    (h : ConnectedPairs M C hs M') (hv : Valid M D) (hCD : ∀ x y, C x y → D x y ∧ D y x)
    (hfree : ∀ b < M.nbc, ∀ x : Face, x.1 < M.elem.length → x.2 < 2 * M.ndim → Free M x → ¬ IsLink (M.bc x.1 b x.2)) :
    Valid M' D := by
  intro b hb
  have e1 : M'.nbc = M.nbc := by rw [h.hdr]
  have e2 : M'.ndim = M.ndim := by rw [h.hdr]
  rw [h.len, e2]
  rw [e1] at hb
  intro x hx hx2 hl
  by_cases hm : x ∈ members hs
  · obtain ⟨p, hp, hq⟩ := List.mem_flatMap.1 hm
    have hi := h.pair p hp
    have hk := h.link p hp b hb
    simp at hq
    rcases hq with rfl | rfl
    · refine ⟨p.2, hi.2.1, hi.2.2.2.1, ?_⟩
      dsimp only
      rw [hk.1, hk.2]
      exact ⟨linked_pointsTo _ _ _, rfl, linked_pointsTo _ _ _, fun _ => (hCD _ _ hi.2.2.2.2.2.2).1⟩
    · refine ⟨p.1, by omega, hi.2.2.1, ?_⟩
      dsimp only
      rw [hk.1, hk.2]
      exact ⟨linked_pointsTo _ _ _, rfl, linked_pointsTo _ _ _, fun _ => (hCD _ _ hi.2.2.2.2.2.2).2⟩
  · have ex := h.other x hx hm b
    dsimp only at hl ⊢
    rw [ex] at hl ⊢
    obtain ⟨y, y1, y2, y3, y4, y5, y6⟩ := hv b hb x hx hx2 hl
    dsimp only at y3 y4 y5 y6
    have hly : IsLink (M.bc y.1 b y.2) := by unfold IsLink at hl ⊢; rw [y4]; exact hl
    have ey := h.keeps y y1 (fun hf => hfree b hb y y1 y2 hf hly) b
    exact ⟨y, y1, y2, y3, by rw [ey]; exact y4, by rw [ey]; exact y5, y6⟩

/-- **C53, validity.** If faces without condition in the first field carry no link in any other field (always true with a
single field), generating internal conditions keeps a valid mesh valid (links within the tolerance). -/
theorem generate_internal_bcs_valid (M : HexaData F) (hw : WF M) (hg : Grid M) (hb : 0 < M.nbc) (hp : ScalesPos M) (tol : F)
    (hv : Valid M (Near M tol))
    (hfree : ∀ b < M.nbc, ∀ x : Face, x.1 < M.elem.length → x.2 < 2 * M.ndim → Free M x → ¬ IsLink (M.bc x.1 b x.2)) :
    ∃ M' n, generateInternalBcs M tol = .ok (M', n) ∧ Valid M' (Near M' tol) := by
  obtain ⟨M', n, hs, h1, h2, _⟩ := generate_internal_bcs_spec M hw hg hb hp tol
  refine ⟨M', n, h1, ?_⟩
  have := h2.valid hv (fun x y h => ⟨h, near_symm h⟩) hfree
  intro b hb' x hx hx2 hl
  obtain ⟨y, y1, y2, y3, y4, y5, y6⟩ := this b hb' x hx hx2 hl
  refine ⟨y, y1, y2, y3, y4, y5, fun hE => ?_⟩
  refine (near_congr (M := M) ?_ ?_ rfl rfl).1 (y6 hE)
  · rw [h2.el x.1 (by rw [← h2.len]; exact hx)]
  · rw [h2.el y.1 (by rw [← h2.len]; exact y1)]

/-- **C53, single field.** -/
theorem generate_internal_bcs_valid_single (M : HexaData F) (hw : WF M) (hg : Grid M) (hb : M.nbc = 1) (hp : ScalesPos M) (tol : F)
    (hv : Valid M (Near M tol)) : ∃ M' n, generateInternalBcs M tol = .ok (M', n) ∧ Valid M' (Near M' tol) := by
  refine generate_internal_bcs_valid M hw hg (by omega) hp tol hv ?_
  intro b hb' x _ _ hf hl
  obtain rfl : b = 0 := by omega
  unfold Free at hf
  rcases hl with h | h <;> rw [hf] at h <;> cases h

/-- **C54.** Afterwards no two free faces of distinct elements are within the tolerance. -/
theorem generate_internal_bcs_complete (M : HexaData F) (hw : WF M) (hg : Grid M) (hb : 0 < M.nbc) (hp : ScalesPos M) (tol : F)
    (M' : HexaData F) (n : Nat) (h : generateInternalBcs M tol = .ok (M', n)) (x y : Face)
    (hx : x.1 < M.elem.length) (hx2 : x.2 < 2 * M.ndim) (hy : y.1 < M.elem.length) (hy2 : y.2 < 2 * M.ndim) (hne : x.1 ≠ y.1)
    (fx : Free M' x) (fy : Free M' y) : ¬ Near M' tol x y := by
  obtain ⟨close, h1, h2⟩ := generate_ok M hw hg hb hp tol
  obtain ⟨s, hs, h3, I⟩ := generateWith_inv M hw close
  obtain rfl : s.mesh = M' := by
    rw [h1, h3] at h
    simp only [Except.ok.injEq, Prod.mk.injEq] at h
    exact h.1
  have free : ∀ z : Face, z.1 < M.elem.length → Free s.mesh z → s.lc z.1 z.2 = false := by
    intro z hz hf
    rw [← Bool.not_eq_true, I.lc z]
    rintro (h | h)
    · exact h (by unfold Free at hf ⊢; rw [← I.con.keeps z hz h 0]; exact hf)
    · obtain ⟨p, hp, hq⟩ := List.mem_flatMap.1 h
      have hk := I.con.link p hp 0 hb
      unfold Free at hf
      simp at hq
      rcases hq with rfl | rfl
      · rw [hk.1] at hf; cases hf
      · rw [hk.2] at hf; cases hf
  have main : ∀ x y : Face, x.1 < M.elem.length → x.2 < 2 * M.ndim → y.1 < M.elem.length → y.2 < 2 * M.ndim → x.1 < y.1 →
      Free s.mesh x → Free s.mesh y → ¬ Near s.mesh tol x y := by
    intro x y hx hx2 hy hy2 hlt fx fy hn
    have hc := I.max x (by rw [mem_prod2, List.mem_range, List.mem_range, hw.nel]; exact ⟨hx, hx2⟩) (free x hx fx) y hlt hy hy2
      (free y hy fy)
    have : Near M tol x y := by
      refine (near_congr (M := s.mesh) ?_ ?_ rfl rfl).1 hn
      · rw [I.con.el x.1 hx]
      · rw [I.con.el y.1 hy]
    rw [← h2 x y hx hx2 hy hy2, hc] at this
    cases this
  rcases lt_or_gt_of_ne hne with hlt | hgt
  · exact main x y hx hx2 hy hy2 hlt fx fy
  · exact fun hn => main y x hy hy2 hx hx2 hgt fy fx (near_symm hn)

/-- **C55.** It raises `ValueError` exactly if some element has a zero length scale (and raises nothing else). -/
theorem generate_internal_bcs_raises (M : HexaData F) (hw : WF M) (hg : Grid M) (hb : 0 < M.nbc) (tol : F) :
    (generateInternalBcs M tol = .error .valueError ↔ ∃ e < M.elem.length, (M.el e).smallestEdgeSq = .ok 0) ∧
    ((∃ r, generateInternalBcs M tol = .ok r) ↔ ∀ e < M.elem.length, (M.el e).smallestEdgeSq ≠ .ok 0) := by
  by_cases hz : ∃ e < M.elem.length, (M.el e).smallestEdgeSq = .ok 0
  · have : generateInternalBcs M tol = .error .valueError := by
      unfold generateInternalBcs
      rw [mapM_error M.elem scaleSq .valueError]
      · rfl
      · intro el hel
        obtain ⟨s, hs⟩ := smallestEdgeSq_ok el (hg el hel)
        by_cases h0 : s ≤ 0
        · right; simp [scaleSq, hs, Bind.bind, Except.bind, h0]
        · left; exact ⟨s, by simp [scaleSq, hs, Bind.bind, Except.bind, h0, pure, Except.pure]⟩
      · obtain ⟨e, he, hs⟩ := hz
        exact ⟨M.el e, M.el_mem e he, by simp [scaleSq, hs, Bind.bind, Except.bind]⟩
    refine ⟨⟨fun _ => hz, fun _ => this⟩, ⟨fun ⟨r, hr⟩ => ?_, fun h => ?_⟩⟩
    · rw [this] at hr; cases hr
    · obtain ⟨e, he, hs⟩ := hz; exact absurd hs (h e he)
  · have hp : ScalesPos M := by
      intro e he
      obtain ⟨s, hs⟩ := smallestEdgeSq_ok (M.el e) (hg _ (M.el_mem e he))
      have := smallestEdgeSq_nonneg _ s hs
      refine ⟨s, hs, lt_of_le_of_ne this ?_⟩
      rintro rfl
      exact hz ⟨e, he, hs⟩
    obtain ⟨M', n, _, h, _⟩ := generate_internal_bcs_spec M hw hg hb hp tol
    refine ⟨⟨fun h' => ?_, fun h' => absurd h' hz⟩, ⟨fun _ e he hs => hz ⟨e, he, hs⟩, fun _ => ⟨_, h⟩⟩⟩
    rw [h] at h'; cases h'

/-- **C55.** A mesh without boundary conditions (`nbc = 0`) is refused with `IndexError`. -/
theorem generate_internal_bcs_no_bc (M : HexaData F) (hw : WF M) (hg : Grid M) (hb : M.nbc = 0)
    (hn : 0 < M.elem.length) (hp : ScalesPos M) (tol : F) : generateInternalBcs M tol = .error .indexError := by
  obtain ⟨r1, h1, _⟩ := mapM_ok' M.elem scaleSq (fun el hel => by
    obtain ⟨e, he, rfl⟩ := mem_elem_el M hel
    obtain ⟨s, hs, h0⟩ := hp e he
    exact ⟨s, by simp [scaleSq, hs, Bind.bind, Except.bind, not_le.2 h0, pure, Except.pure]⟩)
  have hb0 : ∀ e < M.elem.length, ∀ f : Int, (M.el e).bcAt 0 f = .error .indexError := by
    intro e he f
    unfold Elem.bcAt
    rw [if_pos (by rw [hw.rows _ (M.el_mem e he), hb])]
  have h2 : ∀ el ∈ M.elem, ((List.range (2 * M.ndim)).mapM fun f : Nat => do
      let c ← el.faceCenter f
      let _ ← el.bcAt 0 f
      pure c) = .error .indexError := by
    intro el hel
    obtain ⟨e, he, rfl⟩ := mem_elem_el M hel
    have hge := hg _ hel
    have hd : 0 < M.ndim := by rcases hw.dim with h | h <;> omega
    have hall : ∀ f ∈ List.range (2 * M.ndim), (do
        let c ← (M.el e).faceCenter f
        let _ ← (M.el e).bcAt 0 f
        pure c : Py _) = .error .indexError := by
      intro f hf
      rw [List.mem_range] at hf
      have hd6 : 2 * M.ndim ≤ 6 := by rcases hw.dim with h | h <;> omega
      rw [face_center_eq_mean (M.el e) f (by omega) (by omega) (by omega) (by omega), hb0 e he]
      rfl
    exact mapM_error _ _ _ (fun x hx => .inr (hall x hx)) ⟨0, List.mem_range.2 (by omega), hall 0 (List.mem_range.2 (by omega))⟩
  unfold generateInternalBcs
  rw [h1, mapM_error M.elem _ .indexError (fun x hx => .inr (h2 x hx)) ⟨M.el 0, M.el_mem 0 hn, h2 _ (M.el_mem 0 hn)⟩]
  rfl

/-! ### Examples -/

/-- The channel with its internal conditions removed meets all hypotheses; regenerating them gives 4 pairs. -/
example : WF (deleteInternalBcs Samples.channel).1 ∧ Grid (deleteInternalBcs Samples.channel).1 ∧
    (deleteInternalBcs Samples.channel).1.nbc = 1 :=
  ⟨Samples.wf_of_wfB _ (by decide +kernel), Samples.grid_of_gridB _ (by decide +kernel), by decide +kernel⟩
example : ScalesPos (deleteInternalBcs Samples.channel).1 := by
  have : ∀ e < (deleteInternalBcs Samples.channel).1.elem.length,
      ((deleteInternalBcs Samples.channel).1.el e).smallestEdgeSq = .ok 1 := by decide +kernel
  exact fun e he => ⟨1, this e he, by norm_num⟩
example : Valid (deleteInternalBcs Samples.channel).1 (Near (deleteInternalBcs Samples.channel).1 (1 / 1000)) :=
  Samples.validNear_of_B _ _ (by decide +kernel) (by decide +kernel) (by decide +kernel) (by decide +kernel)
example : (match generateInternalBcs (deleteInternalBcs Samples.channel).1 (1 / 1000) with
    | .ok (M', n) => (n, (M'.bc 0 0 1).typ, (M'.bc 0 0 1).p3, Samples.validB M') | .error _ => (0, [], 0, false)) =
    (4, nE, 2, true) := by decide +kernel
/-- An element of zero size is rejected. -/
example : generateInternalBcs (HexaData.new .little 2 1 ⟨2, 2, 1, true⟩ ⟨2, 2, 0, 0, 0⟩ 1 : HexaData ℚ) (1 / 1000) =
    .error .valueError := by
  refine (generate_internal_bcs_raises _ (Samples.wf_of_wfB _ (by decide +kernel)) (Samples.grid_of_gridB _ (by decide +kernel))
    (by decide +kernel) _).1.2 ⟨0, by decide +kernel, by decide +kernel⟩

/-- The channel without boundary conditions. -/
example : (match generateInternalBcs { Samples.channel with nbc := 0, elem := Samples.channel.elem.map fun el => { el with rows := 0 } } (1 / 1000) with
    | .error e => decide (e = .indexError) | .ok _ => false) = true := by decide +kernel

end Pymech
