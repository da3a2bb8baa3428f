import Verif.Props.Lims
import Verif.Props.Circle
import Verif.Props.Keep
import Verif.Props.Extrude

/-!
# C128 `lims` of the results of the mesh tools
-/

set_option autoImplicit false
set_option linter.unusedSectionVars false

namespace Pymech

open Spec

variable {F : Type} [Field F] [LinearOrder F] [IsStrictOrderedRing F] [FloorRing F]

namespace Spec

/-- The limits of two collections together. -/
def jointLims (a b : List (F × F)) : List (F × F) := List.zipWith (fun p q => (min p.1 q.1, max p.2 q.2)) a b

/-- Limits lie within other limits. -/
def Within (a b : List (F × F)) : Prop :=
  a.length = b.length ∧ ∀ (c : Nat) (p q : F × F), a[c]? = some p → b[c]? = some q → q.1 ≤ p.1 ∧ p.1 ≤ p.2 ∧ p.2 ≤ q.2

end Spec

/-- Two lists of elements with the same arrays. -/
theorem values_congr {a b : List (Elem F)} (h : ∀ v, a.map (Elem.get · v) = b.map (Elem.get · v)) (v : VarName) (c : Nat) : values a v c = values b v c := by
  have key : ∀ {a b : List (Elem F)}, a.map (Elem.get · v) = b.map (Elem.get · v) → ∀ x, x ∈ values a v c → x ∈ values b v c := by
    rintro a b h x ⟨el, hel, k, hk, j, hj, i, hi, rfl⟩
    have : el.get v ∈ b.map (Elem.get · v) := h ▸ List.mem_map_of_mem hel
    obtain ⟨el', hel', he⟩ := List.mem_map.1 this
    exact ⟨el', hel', k, by rw [he]; exact hk, j, by rw [he]; exact hj, i, by rw [he]; exact hi, by rw [he]⟩
  ext x
  exact ⟨key (h v) x, key (h v).symm x⟩

theorem shape_congr {N : VarName → Nat} {a b : List (Elem F)} (h : ∀ v, a.map (Elem.get · v) = b.map (Elem.get · v)) (hs : SameShape N a) : SameShape N b := by
  intro el hel v
  have : el.get v ∈ a.map (Elem.get · v) := by rw [h v]; exact List.mem_map_of_mem hel
  obtain ⟨el', hel', he⟩ := List.mem_map.1 this
  have := hs el' hel' v
  rw [he] at this
  exact this

theorem limits_unique {N : VarName → Nat} {a b : List (Elem F)} (hv : ∀ v c, values a v c = values b v c) {L L' : VarName → List (F × F)}
    (h : AreLimits N a L) (h' : AreLimits N b L') : L = L' := by
  funext v
  apply List.ext_getElem?
  intro c
  by_cases hc : c < N v
  · obtain ⟨p, e, m, g⟩ := (h v).2 c hc
    obtain ⟨p', e', m', g'⟩ := (h' v).2 c hc
    rw [e, e']
    rw [← hv v c] at m' g'
    rw [Prod.ext (m.unique m') (g.unique g')]
  · rw [List.getElem?_eq_none (by rw [(h v).1]; omega), List.getElem?_eq_none (by rw [(h' v).1]; omega)]

/-- **C128** for `merge`: the limits of the merged mesh are those of the two meshes together. -/
theorem C128_merge {A B M : HexaData F} {tol : F} {ie ia : Bool} {n : Nat} (h : A.merge B tol ie ia = .ok (M, n)) (N : VarName → Nat)
    (sA : SameShape N A.elem) (sB : SameShape N B.elem) (hA : 2 ≤ A.elem.length) (hB : 2 ≤ B.elem.length) :
    ∃ LA LB, dataLims A.elem = .ok LA ∧ dataLims B.elem = .ok LB ∧ dataLims M.elem = .ok fun v => jointLims (LA v) (LB v) := by
  obtain ⟨LA, a1, a2⟩ := lims_extrema N A.elem hA sA
  obtain ⟨LB, b1, b2⟩ := lims_extrema N B.elem hB sB
  have hm : ∀ v, M.elem.map (Elem.get · v) = (A.elem ++ B.elem).map (Elem.get · v) := by
    intro v
    rw [List.map_append]
    exact merge_map h (Elem.get · v) (fun el g => by cases v <;> rfl)
  have sM : SameShape N M.elem := by
    refine shape_congr (fun v => (hm v).symm) ?_
    intro el hel
    rcases List.mem_append.1 hel with h' | h'
    · exact sA el h'
    · exact sB el h'
  have hlen : M.elem.length = A.elem.length + B.elem.length := by
    have := congrArg List.length (hm .pos)
    simpa using this
  obtain ⟨L, l1, l2⟩ := lims_extrema N M.elem (by omega) sM
  refine ⟨LA, LB, a1, b1, ?_⟩
  rw [l1, limits_unique (fun v c => (values_congr hm v c)) l2 (b := A.elem ++ B.elem) (L' := fun v => jointLims (LA v) (LB v)) ?_]
  intro v
  refine ⟨by simp [jointLims, (a2 v).1, (b2 v).1], fun c hc => ?_⟩
  obtain ⟨p, p1, p2, p3⟩ := (a2 v).2 c hc
  obtain ⟨q, q1, q2, q3⟩ := (b2 v).2 c hc
  refine ⟨(min p.1 q.1, max p.2 q.2), by simp [jointLims, List.getElem?_zipWith, p1, q1], ?_, ?_⟩
  · rw [values_append]; exact p2.union q2
  · rw [values_append]; exact p3.union q3

/-- The limits of the merged channels: from 0 to 4 in x. -/
example : ∃ LA LB, dataLims Samples.channel.elem = .ok LA ∧ dataLims Samples.channel2.elem = .ok LB ∧
    (∀ M n, Samples.channel.merge Samples.channel2 (1 / 1000) true false = .ok (M, n) → dataLims M.elem = .ok fun v => jointLims (LA v) (LB v)) := by
  have shape : ∀ M, M = Samples.channel ∨ M = Samples.channel2 → SameShape (fun | .pos => 3 | .vel => 3 | _ => 0) M.elem := by
    rintro M (rfl | rfl) el hel v <;> revert el <;> cases v <;> decide +kernel
  obtain ⟨LA, a1, -⟩ := lims_extrema _ _ (by decide +kernel) (shape _ (Or.inl rfl))
  obtain ⟨LB, b1, -⟩ := lims_extrema _ _ (by decide +kernel) (shape _ (Or.inr rfl))
  refine ⟨LA, LB, a1, b1, fun M n h => ?_⟩
  obtain ⟨LA', LB', a2, b2, c2⟩ := C128_merge h _ (shape _ (Or.inl rfl)) (shape _ (Or.inr rfl)) (by decide +kernel) (by decide +kernel)
  rw [a1] at a2
  rw [b1] at b2
  cases a2
  cases b2
  exact c2

example : (match Samples.channel.merge Samples.channel2 (1 / 1000) true false with
    | .ok s => (match dataLims s.1.elem with | .ok L => L .pos | _ => [])
    | _ => []) = [(0, 4), (0, 2), (0, 0)] := by decide +kernel

/-- **C128** for `keep_elements`: the limits of a part lie within those of the whole mesh. -/
theorem C128_keep (M : HexaData F) (hn : M.nel = M.elem.length) (elems : List Int) (A : KeepArgs M elems) (ext : Name) (hl : LinksExist M)
    (N : VarName → Nat) (s : SameShape N M.elem) (h2 : 2 ≤ elems.length) :
    ∃ R L L', keepElements M elems ext = .ok R ∧ dataLims M.elem = .ok L ∧ dataLims R.elem = .ok L' ∧ ∀ v, Within (L' v) (L v) := by
  obtain ⟨S, R, g1, g2, -, g4, g5⟩ := keep_elements_spec M hn elems A ext hl
  have hlen : S.length = elems.length := by simpa using g1.2.length_eq
  have hSM : S.length ≤ M.elem.length := by
    have hr : ∀ x ∈ S, x < M.elem.length := by
      intro x hx
      have := (A.range x (g1.2.mem_iff.1 (List.mem_map.2 ⟨x, hx, rfl⟩))).2
      omega
    have hnd : S.Nodup := g1.1.imp (fun h => Nat.ne_of_lt h)
    have := (hnd.subperm (l₂ := List.range M.elem.length) (fun x hx => List.mem_range.2 (hr x hx))).length_le
    simpa using this
  have hmem : ∀ el ∈ R.elem, ∃ el' ∈ M.elem, ∀ v, el.get v = el'.get v := by
    intro el hel
    obtain ⟨j, hj, rfl⟩ := List.getElem_of_mem hel
    rw [← R.el_eq_getElem j hj]
    obtain ⟨a1, a2, -⟩ := g5 j S[j] (List.getElem?_eq_getElem (by omega))
    refine ⟨_, M.el_mem _ a1, fun v => ?_⟩
    rw [a2]
    cases v <;> rfl
  have sR : SameShape N R.elem := by
    intro el hel v
    obtain ⟨el', h1, h2⟩ := hmem el hel
    rw [h2 v]
    exact s el' h1 v
  obtain ⟨L, l1, l2⟩ := lims_extrema N M.elem (by omega) s
  obtain ⟨L', k1, k2⟩ := lims_extrema N R.elem (by omega) sR
  have hsub : ∀ v c, values R.elem v c ⊆ values M.elem v c := by
    rintro v c x ⟨el, hel, k, hk, j, hj, i, hi, rfl⟩
    obtain ⟨el', h1, h2⟩ := hmem el hel
    exact ⟨el', h1, k, by rw [← h2]; exact hk, j, by rw [← h2]; exact hj, i, by rw [← h2]; exact hi, by rw [h2]⟩
  refine ⟨R, L, L', g2, l1, k1, fun v => ⟨by rw [(k2 v).1, (l2 v).1], fun c p q hp hq => ?_⟩⟩
  have hc : c < N v := by
    rw [← (k2 v).1]
    exact (List.getElem?_eq_some_iff.1 hp).1
  obtain ⟨p', p1, p2, p3⟩ := (k2 v).2 c hc
  obtain ⟨q', q1, q2, q3⟩ := (l2 v).2 c hc
  rw [hp] at p1
  rw [hq] at q1
  cases p1
  cases q1
  exact ⟨q2.2 (hsub v c p2.1), p2.2 p3.1, q3.2 (hsub v c p3.1)⟩

/-- Of the 2×2 channel the two elements on the right. -/
example : ∃ R L L', keepElements Samples.channel [3, 1] Samples.nW = .ok R ∧ dataLims Samples.channel.elem = .ok L ∧ dataLims R.elem = .ok L' ∧
    ∀ v, Within (L' v) (L v) := by
  refine C128_keep Samples.channel (by decide +kernel) [3, 1] ⟨by decide, by decide +kernel⟩ Samples.nW ?_ (fun | .pos => 3 | .vel => 3 | _ => 0) ?_ (by decide)
  · intro e he b hb f hf h
    obtain ⟨y, y1, _, y3, _⟩ := Samples.valid_of_validB Samples.channel (by decide +kernel) b hb (e, f) he hf h
    exact ⟨y.1, by rw [(Samples.wf_of_wfB Samples.channel (by decide +kernel)).nel]; exact y1, y3.1⟩
  · intro el hel v
    revert el
    cases v <;> decide +kernel

/-- **C128** for `extrude`: the limits in x and y are those of the plane mesh, and those in z the least and greatest of the z values. -/
theorem C128_extrude (M : HexaData F) (z : List F) (o1 o2 : Option (List Name)) (A : ExtrudeArgs M z o1 o2) (ib : Bool) (N : VarName → Nat)
    (s : SameShape N M.elem) (hN : N .pos = 3) (hg : ∀ el ∈ M.elem, el.pos.lz = 1 ∧ el.pos.ly = 2 ∧ el.pos.lx = 2) (h2 : 2 ≤ M.elem.length) :
    ∃ R L L', extrude M z o1 o2 ib = .ok R ∧ dataLims M.elem = .ok L ∧ dataLims R.elem = .ok L' ∧ (∀ v, v ≠ .pos → L' v = L v) ∧
      (L' .pos).length = 3 ∧ (L' .pos)[0]? = (L .pos)[0]? ∧ (L' .pos)[1]? = (L .pos)[1]? ∧
      ∃ p, (L' .pos)[2]? = some p ∧ IsLeast { x | x ∈ z } p.1 ∧ IsGreatest { x | x ∈ z } p.2 := by
  obtain ⟨R, h1, -, h3, h4⟩ := extrude_ok A ib
  have hz := A.z
  have hnel := A.wf.nel
  obtain ⟨m, hm⟩ : ∃ m, z.length = m + 2 := ⟨z.length - 2, by omega⟩
  have hel : ∀ k < z.length - 1, ∀ i < M.nel, ∀ v, (R.el (i + M.nel * k)).get v =
      if v = .pos then (extrudeGeom (M.el i) (M.el i) (z.getD k 0) (z.getD (k + 1) 0)).pos else (M.el i).get v := by
    intro k hk i hi v
    rw [h4 k hk i hi, sliceElem_frame M hnel ib k i hi]
    cases ib <;> cases v <;> rfl
  have hRlen : 2 ≤ R.elem.length := by
    rw [h3, hm]
    have : M.nel * 1 ≤ M.nel * (m + 2 - 1) := Nat.mul_le_mul_left _ (by omega)
    omega
  have hidx : ∀ j < R.elem.length, ∃ k i, k < z.length - 1 ∧ i < M.nel ∧ j = i + M.nel * k := by
    intro j hj
    rw [h3] at hj
    have hp : 0 < M.nel := by omega
    exact ⟨j / M.nel, j % M.nel, by rw [Nat.div_lt_iff_lt_mul hp, Nat.mul_comm]; exact hj, Nat.mod_lt _ hp, (Nat.mod_add_div j M.nel).symm⟩
  have hRmem : ∀ k < z.length - 1, ∀ i < M.nel, R.el (i + M.nel * k) ∈ R.elem := by
    intro k hk i hi
    refine R.el_mem _ ?_
    rw [h3]
    calc i + M.nel * k < M.nel * 1 + M.nel * k := by omega
      _ = M.nel * (k + 1) := by ring
      _ ≤ _ := Nat.mul_le_mul_left _ (by omega)
  have hmem : ∀ el ∈ R.elem, ∃ k i, k < z.length - 1 ∧ i < M.nel ∧ el = R.el (i + M.nel * k) := by
    intro el he
    obtain ⟨j, hj, rfl⟩ := List.getElem_of_mem he
    obtain ⟨k, i, hk, hi, e⟩ := hidx j hj
    exact ⟨k, i, hk, hi, by rw [← R.el_eq_getElem j hj, e]⟩
  have sR : SameShape N R.elem := by
    intro el he v
    obtain ⟨k, i, hk, hi, rfl⟩ := hmem el he
    rw [hel k hk i hi v]
    split_ifs with hv
    · rw [hv]; exact ⟨hN.symm, Nat.zero_lt_two, Nat.zero_lt_two, Nat.zero_lt_two⟩
    · exact s _ (M.el_mem i (by omega)) v
  have hother : ∀ v, v ≠ .pos → ∀ c, values R.elem v c = values M.elem v c := by
    intro v hv c
    ext x
    constructor
    · rintro ⟨el, he, h⟩
      obtain ⟨k, i, hk, hi, rfl⟩ := hmem el he
      rw [hel k hk i hi v, if_neg hv] at h
      exact ⟨_, M.el_mem i (by omega), h⟩
    · rintro ⟨el, he, h⟩
      obtain ⟨i, hi, rfl⟩ := List.getElem_of_mem he
      rw [← M.el_eq_getElem i hi] at h
      refine ⟨_, hRmem 0 (by omega) i (by omega), ?_⟩
      rw [hel 0 (by omega) i (by omega) v, if_neg hv]
      exact h
  have hxy : ∀ c < 2, values R.elem .pos c = values M.elem .pos c := by
    intro c hc
    ext x
    constructor
    · rintro ⟨el, he, kz, hkz, ky, hky, kx, hkx, hx⟩
      obtain ⟨k, i, hk, hi, rfl⟩ := hmem el he
      rw [hel k hk i hi, if_pos rfl] at hky hkx hx
      obtain ⟨g1, g2, g3⟩ := hg _ (M.el_mem i (by omega))
      refine ⟨_, M.el_mem i (by omega), 0, by show 0 < (M.el i).pos.lz; omega, ky, ?_, kx, ?_, ?_⟩
      · show ky < (M.el i).pos.ly
        rw [g2]; exact hky
      · show kx < (M.el i).pos.lx
        rw [g3]; exact hkx
      · rw [hx]
        exact if_neg (by omega)
    · rintro ⟨el, he, kz, hkz, ky, hky, kx, hkx, hx⟩
      obtain ⟨i, hi, rfl⟩ := List.getElem_of_mem he
      rw [← M.el_eq_getElem i hi] at hkz hky hkx hx
      obtain ⟨g1, g2, g3⟩ := hg _ (M.el_mem i hi)
      have hkz : kz < (M.el i).pos.lz := hkz
      have hky : ky < (M.el i).pos.ly := hky
      have hkx : kx < (M.el i).pos.lx := hkx
      rw [g1] at hkz
      rw [g2] at hky
      rw [g3] at hkx
      obtain rfl : kz = 0 := by omega
      refine ⟨_, hRmem 0 (by omega) i (by omega), 0, ?_, ky, ?_, kx, ?_, ?_⟩
      · rw [hel 0 (by omega) i (by omega), if_pos rfl]; exact (by decide : 0 < 2)
      · rw [hel 0 (by omega) i (by omega), if_pos rfl]; exact hky
      · rw [hel 0 (by omega) i (by omega), if_pos rfl]; exact hkx
      · rw [hel 0 (by omega) i (by omega), if_pos rfl, hx]
        exact (if_neg (by omega)).symm
  have hzz : values R.elem .pos 2 = { x | x ∈ z } := by
    have hget : ∀ k, k < z.length → z.getD k 0 ∈ z := fun k hk => by
      rw [List.getD_eq_getElem?_getD, List.getElem?_eq_getElem hk]
      exact List.getElem_mem hk
    ext x
    constructor
    · rintro ⟨el, he, kz, hkz, ky, hky, kx, hkx, hx⟩
      obtain ⟨k, i, hk, hi, rfl⟩ := hmem el he
      rw [hel k hk i hi, if_pos rfl] at hx
      have hx : x = if kz = 0 then z.getD k 0 else z.getD (k + 1) 0 := hx
      show x ∈ z
      rw [hx]
      split_ifs
      · exact hget _ (by omega)
      · exact hget _ (by omega)
    · intro hx
      obtain ⟨j, hj, rfl⟩ := List.getElem_of_mem (show x ∈ z from hx)
      have e : z.getD j 0 = z[j] := by rw [List.getD_eq_getElem?_getD, List.getElem?_eq_getElem hj]; rfl
      by_cases hj' : j < z.length - 1
      · refine ⟨_, hRmem j hj' 0 (by omega), 0, ?_, 0, ?_, 0, ?_, ?_⟩
        · rw [hel j hj' 0 (by omega), if_pos rfl]; exact (by decide : 0 < 2)
        · rw [hel j hj' 0 (by omega), if_pos rfl]; exact (by decide : 0 < 2)
        · rw [hel j hj' 0 (by omega), if_pos rfl]; exact (by decide : 0 < 2)
        · rw [hel j hj' 0 (by omega), if_pos rfl]
          exact e.symm
      · obtain ⟨k, rfl⟩ : ∃ k, j = k + 1 := ⟨j - 1, by omega⟩
        have hk : k < z.length - 1 := by omega
        refine ⟨_, hRmem k hk 0 (by omega), 1, ?_, 0, ?_, 0, ?_, ?_⟩
        · rw [hel k hk 0 (by omega), if_pos rfl]; exact (by decide : 1 < 2)
        · rw [hel k hk 0 (by omega), if_pos rfl]; exact (by decide : 0 < 2)
        · rw [hel k hk 0 (by omega), if_pos rfl]; exact (by decide : 0 < 2)
        · rw [hel k hk 0 (by omega), if_pos rfl]
          exact e.symm
  obtain ⟨L, l1, l2⟩ := lims_extrema N M.elem h2 s
  obtain ⟨L', k1, k2⟩ := lims_extrema N R.elem hRlen sR
  have hone : ∀ v c, values R.elem v c = values M.elem v c → (L' v)[c]? = (L v)[c]? := by
    intro v c hv
    by_cases hc : c < N v
    · obtain ⟨p, e, m, g⟩ := (k2 v).2 c hc
      obtain ⟨p', e', m', g'⟩ := (l2 v).2 c hc
      rw [e, e']
      rw [← hv] at m' g'
      rw [Prod.ext (m.unique m') (g.unique g')]
    · rw [List.getElem?_eq_none (by rw [(k2 v).1]; omega), List.getElem?_eq_none (by rw [(l2 v).1]; omega)]
  refine ⟨R, L, L', h1, l1, k1, fun v hv => List.ext_getElem? fun c => hone v c (hother v hv c), by rw [(k2 .pos).1, hN], hone _ _ (hxy 0 (by omega)),
    hone _ _ (hxy 1 (by omega)), ?_⟩
  obtain ⟨p, p1, p2, p3⟩ := (k2 .pos).2 2 (by omega)
  rw [hzz] at p2 p3
  exact ⟨p, p1, p2, p3⟩

example : ∃ R L L', extrude Samples.channel [0, 3, 1] none none true = .ok R ∧ dataLims Samples.channel.elem = .ok L ∧ dataLims R.elem = .ok L' ∧
    (∀ v, v ≠ .pos → L' v = L v) ∧ (L' .pos).length = 3 ∧ (L' .pos)[0]? = (L .pos)[0]? ∧ (L' .pos)[1]? = (L .pos)[1]? ∧
      ∃ p, (L' .pos)[2]? = some p ∧ IsLeast { x | x ∈ [(0 : ℚ), 3, 1] } p.1 ∧ IsGreatest { x | x ∈ [(0 : ℚ), 3, 1] } p.2 := by
  refine C128_extrude Samples.channel [0, 3, 1] none none ⟨Samples.wf_of_wfB _ (by decide +kernel), by decide +kernel, by decide +kernel, by decide +kernel,
    by decide, fun l h => (by cases h), fun l h => (by cases h), ?_⟩ true (fun | .pos => 3 | .vel => 3 | _ => 0) ?_ rfl ?_ (by decide +kernel)
  · rw [← oneSidedP_iff]
    decide +kernel
  · intro el hel v
    revert el
    cases v <;> decide +kernel
  · decide +kernel

end Pymech
