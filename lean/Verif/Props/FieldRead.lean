import Verif.Props.Field

/-!
# Reading arbitrary field files: C09, C10, C11
-/

namespace Pymech

open Spec

variable {F : Type} [FloatTy F]

/-! ### Names of the variables -/

/-- Coordinate names. -/
def Spec.axis : Nat → Char
  | 0 => 'x' | 1 => 'y' | _ => 'z'

/-- The names under which component `d` of an array can be skipped. -/
def Spec.names : Fld → Nat → List Text
  | .pos, d => [[axis d]]
  | .vel, d => [['u', axis d], ['v', axis d]]
  | .pres, _ => ["p".toList, "pressure".toList]
  | .temp, _ => ["t".toList, "temperature".toList]
  | .scal, d => ["s".toList ++ dec02 (d + 1)]

/-- Component `d` of array `f` is named in the list. -/
def Spec.Skips (S : List Text) (f : Fld) (d : Nat) : Prop := ∃ t ∈ names f d, t ∈ S

instance (S : List Text) (f : Fld) (d : Nat) : Decidable (Skips S f d) := inferInstanceAs (Decidable (∃ t ∈ _, _))

theorem skips_pos (S : List Text) (d : Nat) : skB S (geomNames d) = true ↔ Skips S .pos d := by
  have : geomNames d = [axis d] := by
    match d with
    | 0 => rfl
    | 1 => rfl
    | n + 2 => rfl
  simp [skB, Skips, names, this]

theorem skips_vel (S : List Text) (d : Nat) : (skB S (velNames1 d) || skB S (velNames2 d)) = true ↔ Skips S .vel d := by
  have : geomNames d = [axis d] := by
    match d with
    | 0 => rfl
    | 1 => rfl
    | n + 2 => rfl
  simp [skB, Skips, names, velNames1, velNames2, this]

theorem skips_two (S : List Text) (a b : Text) : (∃ t ∈ [a, b], t ∈ S) ↔ a ∈ S ∨ b ∈ S := by simp

theorem skips_pres (S : List Text) (d : Nat) : (skB S ['p'] || skB S "pressure".toList) = true ↔ Skips S .pres d := by
  rw [Bool.or_eq_true, skB, skB, decide_eq_true_eq, decide_eq_true_eq]
  exact (skips_two S _ _).symm

theorem skips_temp (S : List Text) (d : Nat) : (skB S ['t'] || skB S "temperature".toList) = true ↔ Skips S .temp d := by
  rw [Bool.or_eq_true, skB, skB, decide_eq_true_eq, decide_eq_true_eq]
  exact (skips_two S _ _).symm

theorem skips_scal (S : List Text) (d : Nat) : skB S (scalName d) = true ↔ Skips S .scal d := by
  rw [skB, decide_eq_true_eq]
  simp [Skips, names, scalName]

/-! ### Reading with and without skipping -/

/-- The second action is the first one, or it skips the block because its component is skipped. -/
inductive Follows (P : Fld → Nat → Prop) : Act → Act → Prop
  | keep (f : Fld) (j : Int) (d : Nat) (h : ¬ P f d) : Follows P (.rd f j d) (.rd f j d)
  | skip (f : Fld) (j : Int) (d : Nat) (o : Option Int) (h : P f d) (ho : o = none ∨ o = some j) : Follows P (.rd f j d) (.sk o)

theorem forall₂_replicate {α β : Type} (R : α → β → Prop) (l : List α) (n : Nat) (b : β) (hn : l.length = n) (h : ∀ a ∈ l, R a b) :
    List.Forall₂ R l (List.replicate n b) := by
  subst hn
  induction l with
  | nil => exact .nil
  | cons a l ih => exact .cons (h a List.mem_cons_self) (ih fun a ha => h a (List.mem_cons_of_mem _ ha))

theorem forall₂_append {α β : Type} {R : α → β → Prop} {l1 l2 : List α} {m1 m2 : List β} (h1 : List.Forall₂ R l1 m1)
    (h2 : List.Forall₂ R l2 m2) : List.Forall₂ R (l1 ++ l2) (m1 ++ m2) := by
  induction h1 with
  | nil => exact h2
  | cons h _ ih => exact .cons h ih

theorem forall₂_flatMap {ι α β : Type} {R : α → β → Prop} (l : List ι) (f : ι → List α) (g : ι → List β)
    (h : ∀ i ∈ l, List.Forall₂ R (f i) (g i)) : List.Forall₂ R (l.flatMap f) (l.flatMap g) := by
  induction l with
  | nil => exact .nil
  | cons i l ih =>
    rw [List.flatMap_cons, List.flatMap_cons]
    exact forall₂_append (h i List.mem_cons_self) (ih fun i hi => h i (List.mem_cons_of_mem _ hi))

theorem forall₂_map {ι α β : Type} {R : α → β → Prop} (l : List ι) (f : ι → α) (g : ι → β)
    (h : ∀ i ∈ l, R (f i) (g i)) : List.Forall₂ R (l.map f) (l.map g) := by
  induction l with
  | nil => exact .nil
  | cons i l ih => exact .cons (h i List.mem_cons_self) (ih fun i hi => h i (List.mem_cons_of_mem _ hi))

theorem group_follows (P : Fld → Nat → Prop) (h : Header) (js : List Int) (f : Fld) (n : Nat) (skip : Nat → Bool) (skipAll : Bool)
    (hs : ∀ d < n, skip d = true → P f d) (hs' : ∀ d < n, P f d → skip d = true ∨ skipAll = true)
    (ha : skipAll = true → ∀ d < n, P f d) (hlen : skipAll = true → n ≠ 0 → js.length = h.nbElems.toNat) :
    List.Forall₂ (Follows P) (actsGroup h js f n (fun _ => false) false) (actsGroup h js f n skip skipAll) := by
  unfold actsGroup
  by_cases hn : n = 0
  · rw [if_pos hn, if_pos hn]; exact .nil
  · rw [if_neg hn, if_neg hn, if_neg (by decide)]
    unfold actsEM
    split
    · next hall =>
      apply forall₂_replicate
      · rw [← hlen hall hn]
        exact flatMap_length_const n (fun j => (List.range n).map fun d => Act.rd f j d) js (fun j _ => by simp)
      · intro a ha'
        obtain ⟨j, -, hm⟩ := List.mem_flatMap.mp ha'
        obtain ⟨d, hd, rfl⟩ := List.mem_map.mp hm
        exact .skip f j d none (ha hall d (List.mem_range.mp hd)) (.inl rfl)
    · next hall =>
      apply forall₂_flatMap
      intro j _
      apply forall₂_map
      intro d hd
      have hd := List.mem_range.mp hd
      cases hsk : skip d
      · exact .keep f j d fun hp => by
          rcases hs' d hd hp with h | h
          · rw [hsk] at h; cases h
          · exact hall h
      · exact .skip f j d _ (hs d hd hsk) (.inr rfl)

theorem scal_follows (P : Fld → Nat → Prop) (h : Header) (js : List Int) (n : Nat) (skip : Nat → Bool)
    (hs : ∀ d < n, skip d = true ↔ P .scal d) (hlen : (∃ d < n, P .scal d) → js.length = h.nbElems.toNat) :
    List.Forall₂ (Follows P) (actsScal h js n (fun _ => false)) (actsScal h js n skip) := by
  unfold actsScal
  by_cases hn : n = 0
  · rw [if_pos hn, if_pos hn]; exact .nil
  · rw [if_neg hn, if_neg hn, all_false n hn, if_neg (by decide)]
    split
    · next hall =>
      rw [List.all_eq_true] at hall
      have hl := hlen ⟨0, by omega, (hs 0 (by omega)).mp (hall 0 (List.mem_range.mpr (by omega)))⟩
      apply forall₂_replicate
      · rw [← hl, Nat.mul_comm]
        have := flatMap_length_const js.length (fun d => js.map fun j => Act.rd .scal j d) (List.range n) (fun d _ => by simp)
        rwa [List.length_range] at this
      · intro a ha'
        obtain ⟨d, hd, hm⟩ := List.mem_flatMap.mp ha'
        obtain ⟨j, hj, rfl⟩ := List.mem_map.mp hm
        exact .skip _ j d none ((hs d (List.mem_range.mp hd)).mp (hall d hd)) (.inl rfl)
    · apply forall₂_flatMap
      intro d hd
      have hd := List.mem_range.mp hd
      simp only [Bool.false_eq_true, if_false]
      cases hsk : skip d
      · simp only [Bool.false_eq_true, if_false]
        apply forall₂_map
        intro j _
        exact .keep _ j d fun hp => by rw [(hs d hd).mpr hp] at hsk; cases hsk
      · simp only [if_true]
        have hp := (hs d hd).mp hsk
        apply forall₂_replicate
        · rw [List.length_map]; exact hlen ⟨d, hd, hp⟩
        · intro a ha
          obtain ⟨j, -, rfl⟩ := List.mem_map.mp ha
          exact .skip _ j d none hp (.inl rfl)

/-- Nothing is skipped as a whole: in each group that is present a component is wanted, and no scalar is skipped. -/
structure Spec.NoWholeGroup (S : List Text) (v : Var) : Prop where
  pos : 0 < v.pos → ∃ d < v.pos, ¬ Skips S .pos d
  velu : 0 < v.vel → ∃ d < v.vel, ['u', axis d] ∉ S
  velv : 0 < v.vel → ∃ d < v.vel, ['v', axis d] ∉ S
  pres : 0 < v.pres → ¬ Skips S .pres 0
  temp : 0 < v.temp → ¬ Skips S .temp 0
  scal : ∀ d < v.scal, ¬ Skips S .scal d

theorem acts_follow (h : Header) (elmap : List Int) (S : List Text)
    (hlen : NoWholeGroup S h.var ∨ (elemIdxs h elmap).length = h.nbElems.toNat) :
    List.Forall₂ (Follows (Skips S)) (acts h elmap []) (acts h elmap S) := by
  have hsk : ∀ t, skB [] t = false := fun t => by simp [skB]
  have hax : ∀ d, geomNames d = [axis d] := fun d => by
    match d with
    | 0 => rfl
    | 1 => rfl
    | n + 2 => rfl
  unfold acts
  simp only [hsk, Bool.or_self]
  rw [actsGroup_all, actsGroup_all]
  refine forall₂_append ?_ (forall₂_append ?_ (forall₂_append ?_ (forall₂_append ?_ ?_)))
  · apply group_follows
    · exact fun d _ hd => (skips_pos S d).mp hd
    · exact fun d _ hd => .inl ((skips_pos S d).mpr hd)
    · intro ha d hd
      rw [List.all_eq_true] at ha
      exact (skips_pos S d).mp (ha d (List.mem_range.mpr hd))
    · intro ha hn
      rcases hlen with hw | hl
      · obtain ⟨d, hd, hns⟩ := hw.pos (by omega)
        rw [List.all_eq_true] at ha
        exact absurd ((skips_pos S d).mp (ha d (List.mem_range.mpr hd))) hns
      · exact hl
  · apply group_follows
    · exact fun d _ hd => (skips_vel S d).mp hd
    · exact fun d _ hd => .inl ((skips_vel S d).mpr hd)
    · intro ha d hd
      rw [Bool.or_eq_true, List.all_eq_true, List.all_eq_true] at ha
      apply (skips_vel S d).mp
      rw [Bool.or_eq_true]
      exact ha.imp (· d (List.mem_range.mpr hd)) (· d (List.mem_range.mpr hd))
    · intro ha hn
      rcases hlen with hw | hl
      · exfalso
        rw [Bool.or_eq_true, List.all_eq_true, List.all_eq_true] at ha
        rcases ha with ha | ha
        · obtain ⟨d, hd, hns⟩ := hw.velu (by omega)
          have := ha d (List.mem_range.mpr hd)
          rw [skB, velNames1, hax, decide_eq_true_eq] at this
          exact hns this
        · obtain ⟨d, hd, hns⟩ := hw.velv (by omega)
          have := ha d (List.mem_range.mpr hd)
          rw [skB, velNames2, hax, decide_eq_true_eq] at this
          exact hns this
      · exact hl
  · apply group_follows
    · intro d _ hd; cases hd
    · exact fun d _ hd => .inr ((skips_pres S d).mpr hd)
    · exact fun ha d _ => (skips_pres S d).mp ha
    · intro ha hn
      rcases hlen with hw | hl
      · exact absurd ((skips_pres S 0).mp ha) (hw.pres (by omega))
      · exact hl
  · apply group_follows
    · intro d _ hd; cases hd
    · exact fun d _ hd => .inr ((skips_temp S d).mpr hd)
    · exact fun ha d _ => (skips_temp S d).mp ha
    · intro ha hn
      rcases hlen with hw | hl
      · exact absurd ((skips_temp S 0).mp ha) (hw.temp (by omega))
      · exact hl
  · apply scal_follows
    · exact fun d _ => skips_scal S d
    · rintro ⟨d, hd, hp⟩
      rcases hlen with hw | hl
      · exact absurd hp (hw.scal d hd)
      · exact hl

theorem follows_valid {P : Fld → Nat → Prop} {l l' : List Act} (hf : List.Forall₂ (Follows P) l l') (len : Nat)
    (hv : ∀ a ∈ l, a.Valid len) : ∀ a ∈ l', a.Valid len := by
  induction hf with
  | nil => intro a ha; cases ha
  | cons h _ ih =>
    intro a ha
    rcases List.mem_cons.mp ha with rfl | ha
    · have := hv _ List.mem_cons_self
      cases h with
      | keep f j d _ => exact this
      | skip f j d o _ ho =>
        rcases ho with rfl | rfl
        · trivial
        · exact this
    · exact ih (fun a ha => hv a (List.mem_cons_of_mem _ ha)) a ha

theorem follows_enough {P : Fld → Nat → Prop} {l l' : List Act} (hf : List.Forall₂ (Follows P) l l') (h : Header) :
    ∀ rest, Enough h rest l → Enough h rest l' := by
  induction hf with
  | nil => intro _ _; trivial
  | cons hh _ ih =>
    intro rest hen
    cases hh with
    | keep f j d _ => exact ⟨hen.1, ih _ hen.2⟩
    | skip f j d o _ _ => exact ih _ hen.2

theorem follows_srcs {P : Fld → Nat → Prop} {l l' : List Act} (hf : List.Forall₂ (Follows P) l l') (e : Endian) (h : Header)
    (len i : Nat) (f : Fld) (d : Nat) : ∀ rest,
    (¬ P f d → srcs (F := F) e h len i rest l' f d = srcs e h len i rest l f d) ∧
      (P f d → srcs (F := F) e h len i rest l' f d = none) := by
  induction hf with
  | nil => intro _; exact ⟨fun _ => rfl, fun _ => rfl⟩
  | cons hh _ ih =>
    intro rest
    obtain ⟨h1, h2⟩ := ih (rest.drop h.blk)
    constructor
    · intro hp
      rw [srcs, srcs, h1 hp]
      cases hh with
      | keep f' j' d' _ => rfl
      | skip f' j' d' o hp' _ =>
        have : ¬ (f' = f ∧ d' = d ∧ pyIndex len j' = .ok i) := by
          rintro ⟨rfl, rfl, -⟩; exact hp hp'
        simp [actSrc, this]
    · intro hp
      rw [srcs, h2 hp]
      cases hh with
      | keep f' j' d' hp' =>
        have : ¬ (f' = f ∧ d' = d ∧ pyIndex len j' = .ok i) := by
          rintro ⟨rfl, rfl, -⟩; exact hp' hp
        simp [actSrc, this]
      | skip f' j' d' o _ _ => rfl

/-- What `skip_vars` should do to an array. -/
def Spec.omitted (S : List Text) (f : Fld) (a : Arr F) : Arr F :=
  { a with dat := fun d z y x => if Skips S f d then 0 else a.dat d z y x }

/-- All elements updated. -/
def HexaData.upd (M : HexaData F) (P : Nat → Fld → Nat → Option (Nat → F)) : HexaData F :=
  let g (i : Nat) (el : Elem F) : Elem F := el.upd (P i)
  { M with elem := M.elem.mapIdx g }

/-- The result of a successful reading. -/
theorem readnek_ok (native : Endian) (S : List Text) (b : Bytes) (M : HexaData F) (hr : readnek native S b = .ok M) :
    ∃ h e elmap, Parsed b h e elmap ∧ (∀ a ∈ acts h elmap S, a.Valid h.nbElems.toNat) ∧ Enough h (dataSection h b) (acts h elmap S) ∧
      M = (initData F native h e elmap).upd fun i => srcs e h h.nbElems.toNat i (dataSection h b) (acts h elmap S) := by
  obtain ⟨h, e, elmap, hp⟩ := readnek_inv native S b M hr
  rw [readnek_parsed native S b h e elmap hp] at hr
  have hl : (initData F native h e elmap).elem.length = h.nbElems.toNat := by simp [initData, HexaData.new]
  cases hrun : runActs e h (acts h elmap S) ⟨dataSection h b, initData F native h e elmap⟩ with
  | error err => rw [hrun] at hr; cases hr
  | ok s =>
    rw [hrun] at hr
    obtain ⟨hv, hen⟩ := runActs_conv _ _ _ _ _ hrun
    have hrun2 := runActs_ok e h _ _ hv hen
    rw [hrun2] at hrun
    cases hrun
    dsimp only at hv hen
    rw [hl] at hv
    refine ⟨h, e, elmap, hp, hv, hen, ?_⟩
    have := Except.ok.inj hr
    rw [← this, after]
    dsimp only
    rw [hl]
    rfl

theorem readnek_mk (native : Endian) (S : List Text) (b : Bytes) (h : Header) (e : Endian) (elmap : List Int) (hp : Parsed b h e elmap)
    (hv : ∀ a ∈ acts h elmap S, a.Valid h.nbElems.toNat) (hen : Enough h (dataSection h b) (acts h elmap S)) :
    (readnek native S b : Py (HexaData F)) =
      .ok ((initData F native h e elmap).upd fun i => srcs e h h.nbElems.toNat i (dataSection h b) (acts h elmap S)) := by
  have hl : (initData F native h e elmap).elem.length = h.nbElems.toNat := by simp [initData, HexaData.new]
  rw [readnek_parsed native S b h e elmap hp, runActs_ok e h _ _ (by dsimp only; rw [hl]; exact hv) hen, after]
  dsimp only
  rw [hl]
  rfl

omit [FloatTy F] in
theorem upd_arr (el : Elem F) (P : Fld → Nat → Option (Nat → F)) (f : Fld) : (el.upd P).arr f = (el.arr f).upd (P f) := by
  cases f <;> rfl

/-- The general form of C09 and C10. -/
theorem skip_vars_spec (native : Endian) (S : List Text) (b : Bytes) (M : HexaData F) (hr : readnek native [] b = .ok M)
    (hc : NoWholeGroup S M.var ∨ ∀ h, readHeader b = .ok h → h.nbElemsFile = h.nbElems) :
    ∃ M' : HexaData F, readnek native S b = .ok M' ∧ M' = { M with elem := M'.elem } ∧ M'.elem.length = M.elem.length ∧
      ∀ i < M.elem.length, ∀ f, (M'.el i).arr f = omitted S f ((M.el i).arr f) := by
  obtain ⟨h, e, elmap, hp, hv, hen, hM⟩ := readnek_ok native [] b M hr
  have hlen : (elemIdxs h elmap).length = h.nbElemsFile.toNat := by
    unfold elemIdxs
    split
    · simp
    · rw [List.length_map, hp.map, List.length_map, words_length]
  have hfol := acts_follow h elmap S (hc.imp
    (fun hw => by rw [hM] at hw; exact hw)
    (fun hh => by rw [hlen, hh h hp.header]))
  have hmk := readnek_mk (F := F) native S b h e elmap hp (follows_valid hfol _ hv) (follows_enough hfol h _ hen)
  refine ⟨_, hmk, by rw [hM]; rfl, by rw [hM]; simp [HexaData.upd], fun i hi f => ?_⟩
  rw [hM] at hi
  simp only [HexaData.upd, List.length_mapIdx] at hi
  have hz : ∀ j, (hj : j < (initData F native h e elmap).elem.length) → (initData F native h e elmap).elem[j] =
      Elem.new h.var.pres h.var.temp h.var.scal h.ox.toNat h.oy.toNat h.oz.toNat 0 := by
    intro j hj
    simp [initData, HexaData.new]
  have hel : ∀ (P : Nat → Fld → Nat → Option (Nat → F)),
      ((initData F native h e elmap).upd P).el i =
        (Elem.new h.var.pres h.var.temp h.var.scal h.ox.toNat h.oy.toNat h.oz.toNat 0).upd (P i) := by
    intro P
    unfold HexaData.el HexaData.upd
    dsimp only
    rw [List.getD_eq_getElem?_getD, List.getElem?_mapIdx, List.getElem?_eq_getElem hi, hz]
    rfl
  rw [hM, hel, hel, upd_arr, upd_arr]
  unfold omitted Arr.upd
  simp only [Arr.mk.injEq, true_and]
  funext d z y x
  obtain ⟨h1, h2⟩ := follows_srcs (F := F) hfol e h h.nbElems.toNat i f d (dataSection h b)
  by_cases hs : Skips S f d
  · rw [h2 hs, if_pos hs]
    cases f <;> rfl
  · rw [h1 hs, if_neg hs]

/-- **C09**. On a complete file `skip_vars` leaves out the named variables and nothing else. -/
theorem C09_skip_vars (native : Endian) (S : List Text) (b : Bytes) (M : HexaData F) (hr : readnek native [] b = .ok M)
    (hc : ∀ h, readHeader b = .ok h → h.nbElemsFile = h.nbElems) :
    ∃ M' : HexaData F, readnek native S b = .ok M' ∧ M' = { M with elem := M'.elem } ∧ M'.elem.length = M.elem.length ∧
      ∀ i < M.elem.length, ∀ f, (M'.el i).arr f = omitted S f ((M.el i).arr f) :=
  skip_vars_spec native S b M hr (.inr hc)

/-- **C10**, the part that holds: on a part of a multi-file field, if no whole group and no scalar is skipped. -/
theorem C10_partial (native : Endian) (S : List Text) (b : Bytes) (M : HexaData F) (hr : readnek native [] b = .ok M)
    (hc : NoWholeGroup S M.var) :
    ∃ M' : HexaData F, readnek native S b = .ok M' ∧ M' = { M with elem := M'.elem } ∧ M'.elem.length = M.elem.length ∧
      ∀ i < M.elem.length, ∀ f, (M'.el i).arr f = omitted S f ((M.el i).arr f) :=
  skip_vars_spec native S b M hr (.inl hc)

/-! ### The element map -/

theorem initData_el (native : Endian) (h : Header) (e : Endian) (elmap : List Int) (P : Nat → Fld → Nat → Option (Nat → F)) (i : Nat)
    (hi : i < h.nbElems.toNat) : ((initData F native h e elmap).upd P).el i =
      (Elem.new h.var.pres h.var.temp h.var.scal h.ox.toNat h.oy.toNat h.oz.toNat 0).upd (P i) := by
  have hl : (initData F native h e elmap).elem.length = h.nbElems.toNat := by simp [initData, HexaData.new]
  have hz : ∀ j, (hj : j < (initData F native h e elmap).elem.length) → (initData F native h e elmap).elem[j] =
      Elem.new h.var.pres h.var.temp h.var.scal h.ox.toNat h.oy.toNat h.oz.toNat 0 := by
    intro j hj
    simp [initData, HexaData.new]
  unfold HexaData.el HexaData.upd
  dsimp only
  rw [List.getD_eq_getElem?_getD, List.getElem?_mapIdx, List.getElem?_eq_getElem (by omega), hz]
  rfl

theorem pyIndex_bound {n i : Nat} {k : Int} (h : pyIndex n k = .ok i) : k < n := by
  unfold pyIndex at h
  split at h
  · split at h
    · assumption
    · cases h
  · omega

/-- A block occurs once if the elements are different. -/
theorem blocks_nodup (order : List Int) (v : Var) (hn : order.Nodup) : (blocks order v).Nodup := by
  have hg : ∀ (f : Fld) (n : Nat), (order.flatMap fun m => (List.range n).map fun d => (f, m, d)).Nodup := by
    intro f n
    refine List.nodup_flatMap.mpr ⟨fun m _ => ?_, ?_⟩
    · exact List.nodup_range.map fun a b h => by simpa using h
    · refine hn.imp fun {a b} hab => ?_
      intro t h1 h2
      obtain ⟨_, _, rfl⟩ := List.mem_map.mp h1
      obtain ⟨_, _, h3⟩ := List.mem_map.mp h2
      simp only [Prod.mk.injEq] at h3
      exact hab h3.2.1.symm
  have hs : ((List.range v.scal).flatMap fun d => order.map fun m => (Fld.scal, m, d)).Nodup := by
    refine List.nodup_flatMap.mpr ⟨fun d _ => ?_, ?_⟩
    · exact hn.map fun a b h => by simpa using h
    · refine List.nodup_range.imp fun {a b} hab => ?_
      intro t h1 h2
      obtain ⟨_, _, rfl⟩ := List.mem_map.mp h1
      obtain ⟨_, _, h3⟩ := List.mem_map.mp h2
      simp only [Prod.mk.injEq] at h3
      exact hab h3.2.2.symm
  have hf : ∀ (f : Fld) (n : Nat) (t : Fld × Int × Nat), t ∈ (order.flatMap fun m => (List.range n).map fun d => (f, m, d)) → t.1 = f := by
    intro f n t ht
    obtain ⟨m, _, hm⟩ := List.mem_flatMap.mp ht
    obtain ⟨_, _, rfl⟩ := List.mem_map.mp hm
    rfl
  unfold blocks
  rw [List.nodup_append]
  refine ⟨List.nodup_flatMap.mpr ⟨fun f _ => hg f _, ?_⟩, hs, ?_⟩
  · have : [Fld.pos, .vel, .pres, .temp].Nodup := by decide
    refine this.imp fun {a b} hab => ?_
    intro t h1 h2
    exact hab ((hf _ _ t h1).symm.trans (hf _ _ t h2))
  · intro t h1 t' h2 he
    subst he
    obtain ⟨f, hfm, h3⟩ := List.mem_flatMap.mp h1
    have := hf _ _ t h3
    obtain ⟨d, _, hm⟩ := List.mem_flatMap.mp h2
    obtain ⟨_, _, rfl⟩ := List.mem_map.mp hm
    subst this
    simp at hfm

/-- Bytes per block. -/
def Spec.blockSize (M : HexaData F) : Nat := M.lr1.x * M.lr1.y * M.lr1.z * M.wdsz

/-- Every field that was read: block `k` of the data section is the one named by entry `k` of the list of blocks. -/
theorem C11_blocks (native : Endian) (b : Bytes) (M : HexaData F) (hr : readnek native [] b = .ok M) :
    ∃ h e, readHeader b = .ok h ∧ M.endian = some e ∧
      M.elmap = (words 4 h.nbElemsFile.toNat (elmapBytes h (b.drop 136))).map (fun w => i32Val (decW e w)) ∧
      M.elmap.length = h.nbElemsFile.toNat ∧
      (∀ n ∈ fileOrder M.elmap M.elmap.length, 0 < count M.var .pos + count M.var .vel + count M.var .pres + count M.var .temp + count M.var .scal →
        n ≤ M.nel) ∧
      ((∀ n ∈ fileOrder M.elmap M.elmap.length, 1 ≤ n) → (fileOrder M.elmap M.elmap.length).Nodup →
        ∀ (k : Nat) f n d, (blocks (fileOrder M.elmap M.elmap.length) M.var)[k]? = some (f, n, d) →
          ∀ z y x, ((M.el (n - 1).toNat).arr f).dat d z y x =
            bufVal e M.wdsz ((b.drop (136 + 4 * M.elmap.length + k * blockSize M)).take (blockSize M))
              ((z * M.lr1.y + y) * M.lr1.x + x)) := by
  obtain ⟨h, e, elmap, hp, hv, hen, hM⟩ := readnek_ok native [] b M hr
  have hme : M.elmap = elmap := by rw [hM]; rfl
  have hlen : elmap.length = h.nbElemsFile.toNat := by rw [hp.map, List.length_map, words_length]
  have hnel : M.nel = h.nbElems.toNat := by rw [hM]; rfl
  have hvar : M.var = h.var := by rw [hM]; rfl
  have hx : M.lr1.x = h.ox.toNat := by rw [hM]; rfl
  have hy : M.lr1.y = h.oy.toNat := by rw [hM]; rfl
  have hz : M.lr1.z = h.oz.toNat := by rw [hM]; rfl
  have hwd : M.wdsz = h.wdsz.toNat := by rw [hM]; rfl
  have hw48 : h.wdsz = 4 ∨ h.wdsz = 8 := by
    obtain ⟨_, _, _, _, _, _, _, _, _, _, _, _, _, _, _, _, _, _, _, _, _, _, _, h1, _⟩ := C08_sound b h hp.header
    exact h1
  have hblk : blockSize M = h.blk := by
    have hs := hp.size
    rw [not_or, not_or, not_or, not_or] at hs
    unfold blockSize Header.blk Header.nbPts
    rw [hx, hy, hz, hwd]
    have a1 : (h.ox.toNat : Int) = h.ox := Int.toNat_of_nonneg (by omega)
    have a2 : (h.oy.toNat : Int) = h.oy := Int.toNat_of_nonneg (by omega)
    have a3 : (h.oz.toNat : Int) = h.oz := Int.toNat_of_nonneg (by omega)
    have a4 : (h.wdsz.toNat : Int) = h.wdsz := Int.toNat_of_nonneg (by omega)
    have : (h.ox * h.oy * h.oz * h.wdsz) = ((h.ox.toNat * h.oy.toNat * h.oz.toNat * h.wdsz.toNat : Nat) : Int) := by
      push_cast; rw [a1, a2, a3, a4]
    rw [this, Int.toNat_natCast]
  have hacts := acts_noskip h elmap
  have hord : fileOrder M.elmap M.elmap.length = fileOrder elmap h.nbElemsFile.toNat := by rw [hme, hlen]
  -- every index is in range
  have hrange : ∀ f n d, (f, n, d) ∈ blocks (fileOrder elmap h.nbElemsFile.toNat) h.var → ∃ i, pyIndex h.nbElems.toNat (n - 1) = .ok i := by
    intro f n d ht
    exact hv _ (by rw [hacts]; exact List.mem_map_of_mem (f := rdAct) ht)
  refine ⟨h, e, hp.header, by rw [hM]; rfl, by rw [hme]; exact hp.map, by rw [hme, hlen], ?_, ?_⟩
  · rw [hord, hvar, hnel]
    intro n hn hc
    have : ∃ f, 0 < count h.var f := by
      by_contra hne
      push Not at hne
      have h1 := hne .pos
      have h2 := hne .vel
      have h3 := hne .pres
      have h4 := hne .temp
      have h5 := hne .scal
      omega
    obtain ⟨f, hf⟩ := this
    obtain ⟨i, hi⟩ := hrange f n 0 ((mem_blocks _ _ _ _ _).mpr ⟨hn, hf⟩)
    have := pyIndex_bound hi
    omega
  · rw [hord, hvar]
    intro hpos hnd k f n d hk z y x
    have hmem := List.mem_of_getElem? hk
    have hn1 := hpos n ((mem_blocks _ _ _ _ _).mp hmem).1
    obtain ⟨i, hi⟩ := hrange f n d hmem
    have hn2 : n ≤ h.nbElems.toNat := by
      have := pyIndex_bound hi
      omega
    have hi' := pyIndex_elmap hn1 hn2
    have hnd' := blocks_nodup _ h.var hnd
    have hsrc := srcs_last (F := F) e h h.nbElems.toNat (n - 1).toNat (acts h elmap []) (dataSection h b) f d k (n - 1)
      (by rw [hacts, List.getElem?_map, hk]; rfl) hi' (by
        intro k' j' hkk hk' hc
        rw [hacts, List.getElem?_map] at hk'
        cases hbk : (blocks (fileOrder elmap h.nbElemsFile.toNat) h.var)[k']? with
        | none => rw [hbk] at hk'; cases hk'
        | some t =>
          rw [hbk] at hk'
          obtain ⟨f', n', d'⟩ := t
          have h1 := Option.some.inj hk'
          simp only [rdAct, Act.rd.injEq] at h1
          obtain ⟨rfl, rfl, rfl⟩ := h1
          have hm' := List.mem_of_getElem? hbk
          have hp' := hpos n' ((mem_blocks _ _ _ _ _).mp hm').1
          have hnn : n' = n := by
            have hb := pyIndex_bound hc
            have := pyIndex_elmap (nel := h.nbElems.toNat) hp' (by omega)
            have := Except.ok.inj (this.symm.trans hc)
            omega
          subst hnn
          have := (List.getElem?_inj (List.getElem?_eq_some_iff.mp hk).1 hnd').mp (hk.trans hbk.symm)
          omega)
    rw [hM, initData_el _ _ _ _ _ _ (by omega), upd_arr]
    have hshape : ((Elem.new h.var.pres h.var.temp h.var.scal h.ox.toNat h.oy.toNat h.oz.toNat 0 : Elem F).arr f).ly = h.oy.toNat ∧
        ((Elem.new h.var.pres h.var.temp h.var.scal h.ox.toNat h.oy.toNat h.oz.toNat 0 : Elem F).arr f).lx = h.ox.toNat := by
      cases f <;> exact ⟨rfl, rfl⟩
    simp only [Arr.upd, hsrc, hshape]
    rw [← hM, hx, hy, hblk, hwd, dataSection, List.drop_drop, List.drop_drop, hme, hlen, Int.toNat_of_nonneg (by omega),
      Nat.add_assoc]

/-- **C11**, a zero in the element map. Block `i` of each group belongs to element `i`, whatever the map says. -/
theorem C11_zero (native : Endian) (b : Bytes) (M : HexaData F) (hr : readnek native [] b = .ok M) (h0 : (0 : Int) ∈ M.elmap) :
    ∃ e, M.endian = some e ∧
      ∀ (k : Nat) f n d, (blocks ((List.range M.elmap.length).map fun i : Nat => (i : Int) + 1) M.var)[k]? = some (f, n, d) →
        ∀ z y x, ((M.el (n - 1).toNat).arr f).dat d z y x =
          bufVal e M.wdsz ((b.drop (136 + 4 * M.elmap.length + k * blockSize M)).take (blockSize M))
            ((z * M.lr1.y + y) * M.lr1.x + x) := by
  obtain ⟨h, e, -, he, -, -, -, h1⟩ := C11_blocks native b M hr
  rw [fileOrder, if_pos h0] at h1
  refine ⟨e, he, h1 ?_ ?_⟩
  · intro n hn
    obtain ⟨i, -, rfl⟩ := List.mem_map.mp hn
    omega
  · exact List.nodup_range.map fun a b h => by simpa using h

/-- **C11**, no zero in the element map. Block `i` of each group belongs to element `elmap[i]`. -/
theorem C11_map (native : Endian) (b : Bytes) (M : HexaData F) (hr : readnek native [] b = .ok M) (hpos : ∀ n ∈ M.elmap, 1 ≤ n)
    (hnd : M.elmap.Nodup) :
    ∃ e, M.endian = some e ∧
      ∀ (k : Nat) f n d, (blocks M.elmap M.var)[k]? = some (f, n, d) →
        ∀ z y x, ((M.el (n - 1).toNat).arr f).dat d z y x =
          bufVal e M.wdsz ((b.drop (136 + 4 * M.elmap.length + k * blockSize M)).take (blockSize M))
            ((z * M.lr1.y + y) * M.lr1.x + x) := by
  obtain ⟨h, e, -, he, -, -, -, h1⟩ := C11_blocks native b M hr
  have h0 : (0 : Int) ∉ M.elmap := fun h => by have := hpos 0 h; omega
  rw [fileOrder, if_neg h0] at h1
  exact ⟨e, he, h1 hpos hnd⟩

/-- **C11**, last part. A file is never read if its element map has no zero but an entry larger than the number of
elements (and there is something to read). -/
theorem C11_raises (native : Endian) (b : Bytes) (M : HexaData F) (hr : readnek native [] b = .ok M) (h0 : (0 : Int) ∉ M.elmap)
    (hv : ∃ f, 0 < count M.var f) : ∀ n ∈ M.elmap, n ≤ M.nel := by
  obtain ⟨h, e, -, -, -, -, h1, -⟩ := C11_blocks native b M hr
  rw [fileOrder, if_neg h0] at h1
  obtain ⟨f, hf⟩ := hv
  intro n hn
  apply h1 n hn
  cases f <;> omega

/-! ### Examples -/

namespace Samples

/-- The bytes of some small single-precision numbers. -/
def nums (l : List Nat) : Bytes := l.flatMap fun k => encW .little 4 (Flt.ofRat (eb := 8) (mb := 23) false k).bits

/-- Header, tag and element map of a hand-made file. -/
def start (text : String) (elmap : List Int) : Bytes :=
  encodeT (ljust 132 text.toList) ++ encW .little 4 (Flt.ofRat (eb := 8) (mb := 23) false (654321 / 100000)).bits ++
    elmap.flatMap fun i => encW .little 4 (i32Bits i)

/-- A file with two elements with one point each, geometry and velocity in two dimensions. -/
def file (elmap : List Int) : Bytes := start "#std 4 1 1 1 2 2 0.5 7 0 1 XU" elmap ++ nums [1, 2, 3, 4, 5, 6, 7, 8]

/-- The first part of a field with two elements: only one of them is in the file. -/
def part : Bytes := start "#std 4 1 1 1 2 1 0.5 7 0 2 XU" [1] ++ nums [1, 2, 3, 4]

/-- Some values of a field that was read. -/
def look (r : Py (HexaData F32)) : Py (List Nat) := r.map fun M =>
  (List.range 2).flatMap fun i => [Fld.pos, .vel].flatMap fun f => (List.range 2).map fun d => (((M.el i).arr f).dat d 0 0 0).bits

end Samples

-- C09
example : (readnek .little [] (Samples.file [2, 1]) : Py (HexaData F32)).isOk = true ∧
    Samples.look (readnek .little ["x".toList, "vy".toList] (Samples.file [2, 1])) =
      .ok (([0, 4, 7, 0, 0, 2, 5, 0] : List Nat).map fun k => (Flt.ofRat (eb := 8) (mb := 23) false k).bits) := by decide +kernel
-- C11
example : Samples.look (readnek .little [] (Samples.file [2, 1])) =
    .ok (([3, 4, 7, 8, 1, 2, 5, 6] : List Nat).map fun k => (Flt.ofRat (eb := 8) (mb := 23) false k).bits) := by decide +kernel
example : Samples.look (readnek .little [] (Samples.file [2, 0])) =
    .ok (([1, 2, 5, 6, 3, 4, 7, 8] : List Nat).map fun k => (Flt.ofRat (eb := 8) (mb := 23) false k).bits) := by decide +kernel
example : (readnek .little [] (Samples.file [2, 3]) : Py (HexaData F32)).isOk = false := by decide +kernel

/-- **C10** is false in the code: a part of a multi-file field is read correctly without `skip_vars`, but skipping the
geometry jumps over as many blocks as the complete field has, and the velocity is not found any more. -/
theorem C10_false : ∃ (b : Bytes) (S : List Text), (readnek .little [] b : Py (HexaData F32)).isOk = true ∧
    (∀ t, Skips S .vel t → False) ∧ (readnek .little S b : Py (HexaData F32)).isOk = false :=
  ⟨Samples.part, ["x".toList, "y".toList], by decide +kernel, by
    intro t ht
    obtain ⟨n, hn, hS⟩ := ht
    simp only [names, List.mem_cons, List.not_mem_nil, or_false] at hn
    rcases hn with rfl | rfl <;> simp at hS, by decide +kernel⟩

-- C10_partial
example : Samples.look (readnek .little ["x".toList] Samples.part) =
    .ok (([0, 2, 3, 4, 0, 0, 0, 0] : List Nat).map fun k => (Flt.ofRat (eb := 8) (mb := 23) false k).bits) := by decide +kernel
example : NoWholeGroup ["x".toList] ⟨2, 2, 0, 0, 0⟩ :=
  ⟨fun _ => ⟨1, by decide, by decide⟩, fun _ => ⟨0, by decide, by decide⟩, fun _ => ⟨0, by decide, by decide⟩, by decide, by decide, by decide⟩

/-! ### A negative number of elements -/

/-- A header that announces a negative number of elements in the file makes `readnek` raise `struct.error`, unless the
file ends after the tag: `read` then returns the whole rest of the file, which is not the empty element map. -/
theorem C11_negative_count (native : Endian) (S : List Text) (b : Bytes) (h : Header) (e : Endian) (hr : readHeader b = .ok h)
    (ht : tagEndian ((b.drop 132).take 4) = .ok e) (hn : h.nbElemsFile < 0) (hl : 136 < b.length) :
    (readnek native S b : Py (HexaData F)) = .error .structError := by
  unfold readnek
  simp only [bind, Except.bind, hr, ht]
  rw [if_pos]
  unfold elmapBytes
  rw [if_neg (by omega), List.length_drop]
  omega

example : (readHeader (encodeT "#std 4 6 6 1 1 -1 0.5 0 0 1 UP".toList)).toOption.map (·.nbElemsFile) = some (-1) := by decide +kernel

end Pymech
