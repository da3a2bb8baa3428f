import Verif.IO.Field
import Verif.Lemmas.Bytes

/-!
# The reader as a list of actions

`readnek` performs a sequence of reads and skips of blocks of the same size. The loops are flattened here into one
list of actions; what such a list does is described once.
-/

namespace Pymech

variable {F : Type} [FloatTy F]

/-- Read one block into component `d` of array `f` of element `elem[j]`, or skip one block (possibly after an access
to `elem[j]`). -/
inductive Act
  | rd (f : Fld) (j : Int) (d : Nat)
  | sk (j : Option Int)
  deriving DecidableEq, Repr

/-- Size of a block in bytes. -/
def Header.blk (h : Header) : Nat := (h.nbPts * h.wdsz).toNat

/-- One action. -/
def runAct (e : Endian) (h : Header) (s : RS F) : Act → Py (RS F)
  | .rd f j d => do
    let i ← pyIndex s.data.elem.length j
    s.read e h f i d
  | .sk none => .ok (s.skip h.blk)
  | .sk (some j) => do
    let _ ← pyIndex s.data.elem.length j
    .ok (s.skip h.blk)

/-- All actions. -/
def runActs (e : Endian) (h : Header) (l : List Act) (s : RS F) : Py (RS F) := l.foldlM (runAct e h) s

/-- The actions of `readEM`. -/
def actsEM (js : List Int) (f : Fld) (n : Nat) (skip : Nat → Bool) : List Act :=
  js.flatMap fun j => (List.range n).map fun d => if skip d then .sk (some j) else .rd f j d

/-- The actions of `readGroup`. -/
def actsGroup (h : Header) (js : List Int) (f : Fld) (n : Nat) (skip : Nat → Bool) (skipAll : Bool) : List Act :=
  if n = 0 then []
  else if skipAll then List.replicate (h.nbElems.toNat * n) (.sk none)
  else actsEM js f n skip

/-- The actions of `readScalars`. -/
def actsScal (h : Header) (js : List Int) (n : Nat) (skip : Nat → Bool) : List Act :=
  if n = 0 then []
  else if (List.range n).all skip then List.replicate (h.nbElems.toNat * n) (.sk none)
  else (List.range n).flatMap fun d =>
    if skip d then List.replicate h.nbElems.toNat (.sk none) else js.map fun j => .rd .scal j d

theorem runActs_append (e : Endian) (h : Header) (l l' : List Act) (s : RS F) :
    runActs e h (l ++ l') s = (do let s ← runActs e h l s; runActs e h l' s) := by
  rw [runActs, List.foldlM_append]; rfl

theorem read_length {e : Endian} {h : Header} {f : Fld} {i d : Nat} {s s' : RS F} (hr : s.read e h f i d = .ok s') :
    s'.data.elem.length = s.data.elem.length := by
  unfold RS.read at hr
  dsimp only at hr
  split at hr
  · cases hr
  · rw [← Except.ok.inj hr]; simp

theorem inner_eq (e : Endian) (h : Header) (f : Fld) (j : Int) (i : Nat) (skip : Nat → Bool) (ds : List Nat) :
    ∀ s : RS F, pyIndex s.data.elem.length j = .ok i →
      ds.foldlM (fun s d => if skip d then .ok (s.skip (h.nbPts * h.wdsz).toNat) else s.read e h f i d) s =
        runActs e h (ds.map fun d => if skip d then .sk (some j) else .rd f j d) s := by
  induction ds with
  | nil => intro s _; rfl
  | cons d ds ih =>
    intro s hs
    rw [List.map_cons, runActs, List.foldlM_cons, List.foldlM_cons]
    cases hd : skip d
    · simp only [Bool.false_eq_true, if_false, runAct, hs, bind, Except.bind]
      cases hr : s.read e h f i d with
      | error err => rfl
      | ok s' => exact ih s' (by rw [read_length hr]; exact hs)
    · simp only [if_true, runAct, hs, bind, Except.bind]
      exact ih _ hs

theorem readEM_eq (e : Endian) (h : Header) (elmap : List Int) (f : Fld) (n : Nat) (hn : n ≠ 0) (skip : Nat → Bool) (s : RS F) :
    readEM e h elmap f n skip s = runActs e h (actsEM (elemIdxs h elmap) f n skip) s := by
  unfold readEM actsEM
  generalize elemIdxs h elmap = js
  induction js generalizing s with
  | nil => rfl
  | cons j js ih =>
    rw [List.foldlM_cons, List.flatMap_cons, runActs_append]
    cases hj : pyIndex s.data.elem.length j with
    | error err =>
      obtain ⟨k, rfl⟩ := Nat.exists_eq_succ_of_ne_zero hn
      rw [List.range_succ_eq_map, List.map_cons, runActs, List.foldlM_cons]
      cases skip 0 <;> simp [runAct, hj, bind, Except.bind]
    | ok i =>
      have h1 := inner_eq e h f j i skip (List.range n) s hj
      simp only [bind, Except.bind] at h1 ⊢
      rw [h1]
      cases runActs e h ((List.range n).map fun d => if skip d then .sk (some j) else .rd f j d) s with
      | error err => rfl
      | ok s' => exact ih s'

theorem runActs_replicate (e : Endian) (h : Header) (n : Nat) (s : RS F) :
    runActs e h (List.replicate n (.sk none)) s = .ok (s.skip (h.blk * n)) := by
  induction n generalizing s with
  | zero => simp [runActs, RS.skip]; rfl
  | succ n ih =>
    rw [List.replicate_succ, runActs, List.foldlM_cons]
    simp only [runAct, bind, Except.bind]
    have := ih (s.skip h.blk)
    rw [runActs] at this
    rw [this]
    simp only [RS.skip, List.drop_drop, Nat.mul_succ, Nat.add_comm]

theorem readGroup_eq (e : Endian) (h : Header) (elmap : List Int) (f : Fld) (n : Nat) (skip : Nat → Bool) (skipAll : Bool) (s : RS F) :
    readGroup e h elmap f n skip skipAll s = runActs e h (actsGroup h (elemIdxs h elmap) f n skip skipAll) s := by
  unfold readGroup actsGroup
  split
  · rfl
  · next hn =>
    split
    · rw [runActs_replicate]; rfl
    · rw [readEM_eq e h elmap f n hn]

theorem scal_inner (e : Endian) (h : Header) (js : List Int) (d : Nat) (s : RS F) :
    js.foldlM (fun s j => do let i ← pyIndex s.data.elem.length j; s.read e h .scal i d) s =
      runActs e h (js.map fun j => .rd .scal j d) s := by
  rw [runActs, List.foldlM_map]; rfl

theorem readScalars_eq (e : Endian) (h : Header) (elmap : List Int) (n : Nat) (skip : Nat → Bool) (s : RS F) :
    readScalars e h elmap n skip s = runActs e h (actsScal h (elemIdxs h elmap) n skip) s := by
  unfold readScalars actsScal
  split
  · rfl
  · split
    · rw [runActs_replicate]; rfl
    · generalize List.range n = ds
      induction ds generalizing s with
      | nil => rfl
      | cons d ds ih =>
        rw [List.foldlM_cons, List.flatMap_cons, runActs_append]
        cases skip d
        · simp only [Bool.false_eq_true, if_false]
          rw [scal_inner]
          simp only [bind, Except.bind]
          cases runActs e h ((elemIdxs h elmap).map fun j => .rd .scal j d) s with
          | error err => rfl
          | ok s' => exact ih s'
        · simp only [if_true]
          rw [runActs_replicate]
          exact ih _

/-! ### What a list of actions does -/

/-- Components replaced by the values of blocks. -/
def Arr.upd (P : Nat → Option (Nat → F)) (a : Arr F) : Arr F :=
  { a with dat := fun n z y x => match P n with
      | some v => v ((z * a.ly + y) * a.lx + x)
      | none => a.dat n z y x }

/-- All arrays of an element. -/
def Elem.upd (P : Fld → Nat → Option (Nat → F)) (el : Elem F) : Elem F :=
  { el with pos := el.pos.upd (P .pos), vel := el.vel.upd (P .vel), pres := el.pres.upd (P .pres),
            temp := el.temp.upd (P .temp), scal := el.scal.upd (P .scal) }

/-- The values an action stores in component `d` of array `f` of element `i` when the file is at `rest`. -/
def actSrc (e : Endian) (h : Header) (len i : Nat) (rest : Bytes) (f : Fld) (d : Nat) : Act → Option (Nat → F)
  | .rd f' j d' => if f' = f ∧ d' = d ∧ pyIndex len j = .ok i then some (bufVal e h.wdsz (rest.take h.blk)) else none
  | .sk _ => none

/-- The values stored last by a list of actions. -/
def srcs (e : Endian) (h : Header) (len i : Nat) : Bytes → List Act → Fld → Nat → Option (Nat → F)
  | _, [], _, _ => none
  | rest, a :: l, f, d => (srcs e h len i (rest.drop h.blk) l f d).or (actSrc e h len i rest f d a)

/-- The index of an action is in range. -/
def Act.Valid (len : Nat) : Act → Prop
  | .rd _ j _ => ∃ i, pyIndex len j = .ok i
  | .sk none => True
  | .sk (some j) => ∃ i, pyIndex len j = .ok i

/-- All blocks that are read are in the file. -/
def Enough (h : Header) : Bytes → List Act → Prop
  | _, [] => True
  | rest, .rd _ _ _ :: l => h.blk ≤ rest.length ∧ Enough h (rest.drop h.blk) l
  | rest, .sk _ :: l => Enough h (rest.drop h.blk) l

/-- The state after the actions. -/
def after (e : Endian) (h : Header) (l : List Act) (s : RS F) : RS F :=
  ⟨s.rest.drop (l.length * h.blk),
    { s.data with elem := s.data.elem.mapIdx fun i el => el.upd (srcs e h s.data.elem.length i s.rest l) }⟩

omit [FloatTy F] in
theorem upd_none (el : Elem F) : el.upd (fun _ _ => none) = el := by
  cases el; rfl

omit [FloatTy F] in
theorem upd_upd (P Q : Fld → Nat → Option (Nat → F)) (el : Elem F) :
    (el.upd Q).upd P = el.upd fun f d => (P f d).or (Q f d) := by
  have : ∀ (P Q : Nat → Option (Nat → F)) (a : Arr F), (a.upd Q).upd P = a.upd fun d => (P d).or (Q d) := by
    intro P Q a
    unfold Arr.upd
    congr 1
    funext n z y x
    cases hP : P n <;> simp only [hP, Option.none_or, Option.some_or]
  unfold Elem.upd
  simp only [this]

omit [FloatTy F] in
theorem setArr_fill (el : Elem F) (f : Fld) (d : Nat) (v : Nat → F) :
    el.setArr f ((el.arr f).fill d v) = el.upd fun f' d' => if f = f' ∧ d = d' then some v else none := by
  have h1 : ∀ a : Arr F, a.fill d v = a.upd fun d' => if d = d' then some v else none := by
    intro a
    unfold Arr.fill Arr.upd
    congr 1
    funext n z y x
    by_cases hn : n = d
    · dsimp only; rw [if_pos hn, if_pos hn.symm]
    · dsimp only; rw [if_neg hn, if_neg (Ne.symm hn)]
  have h2 : ∀ a : Arr F, a.upd (fun _ => none) = a := fun _ => rfl
  cases f <;> simp [Elem.setArr, Elem.arr, Elem.upd, h1, h2]

theorem after_nil (e : Endian) (h : Header) (s : RS F) : after e h [] s = s := by
  unfold after
  have : (s.data.elem.mapIdx fun i el => el.upd (srcs e h s.data.elem.length i s.rest [])) = s.data.elem := by
    apply List.ext_getElem?
    intro i
    rw [List.getElem?_mapIdx]
    cases s.data.elem[i]? with
    | none => rfl
    | some el => exact congrArg some (upd_none el)
  rw [this]
  simp

theorem after_cons_sk (e : Endian) (h : Header) (j : Option Int) (l : List Act) (s : RS F) :
    after e h (.sk j :: l) s = after e h l (s.skip h.blk) := by
  unfold after RS.skip
  simp only [List.length_cons, List.drop_drop, Nat.succ_mul, Nat.add_comm, srcs, actSrc, Option.or_none]

theorem after_cons_rd (e : Endian) (h : Header) (f : Fld) (j : Int) (d i : Nat) (l : List Act) (s s' : RS F)
    (hi : pyIndex s.data.elem.length j = .ok i) (hr : s.read e h f i d = .ok s') :
    after e h (.rd f j d :: l) s = after e h l s' := by
  unfold RS.read at hr
  dsimp only at hr
  split at hr
  · cases hr
  · have := (Except.ok.inj hr).symm
    subst this
    unfold after
    simp only [List.length_cons, List.drop_drop, Nat.succ_mul, List.length_modify, Header.blk]
    congr 1
    · congr 1; omega
    · congr 1
      apply List.ext_getElem?
      intro k
      rw [List.getElem?_mapIdx, List.getElem?_mapIdx, List.getElem?_modify]
      cases s.data.elem[k]? with
      | none => simp
      | some el =>
        simp only [Option.map_some, Option.map_eq_map, Option.some.injEq]
        by_cases hk : i = k
        · rw [if_pos hk, setArr_fill, upd_upd]
          congr 1
          funext f' d'
          simp only [srcs, actSrc, hi, hk, and_true, Header.blk]
        · rw [if_neg hk]
          congr 1
          funext f' d'
          have : ¬ (Except.ok i : Py Nat) = .ok k := fun hc => hk (Except.ok.inj hc)
          simp only [srcs, actSrc, hi, this, and_false, if_false, Option.or_none, Header.blk]

/-- The result of a list of actions. -/
theorem runActs_ok (e : Endian) (h : Header) (l : List Act) (s : RS F)
    (hv : ∀ a ∈ l, a.Valid s.data.elem.length) (hen : Enough h s.rest l) : runActs e h l s = .ok (after e h l s) := by
  induction l generalizing s with
  | nil => rw [after_nil]; rfl
  | cons a l ih =>
    rw [runActs, List.foldlM_cons]
    cases a with
    | rd f j d =>
      obtain ⟨i, hi⟩ := hv _ (List.mem_cons_self)
      have hlen : ¬ s.rest.length < h.blk := by have := hen.1; omega
      have hr : ∃ s', s.read e h f i d = .ok s' ∧ s'.rest = s.rest.drop h.blk := by
        unfold RS.read
        dsimp only
        rw [Header.blk] at hlen
        rw [if_neg hlen]
        exact ⟨_, rfl, rfl⟩
      obtain ⟨s', hr, hrest⟩ := hr
      simp only [runAct, hi, bind, Except.bind, hr]
      rw [after_cons_rd e h f j d i l s s' hi hr]
      refine ih s' (fun a ha => ?_) ?_
      · rw [read_length hr]; exact hv a (List.mem_cons_of_mem _ ha)
      · rw [hrest]; exact hen.2
    | sk j =>
      rw [after_cons_sk]
      have hsk : runAct e h s (.sk j) = .ok (s.skip h.blk) := by
        cases j with
        | none => rfl
        | some j =>
          obtain ⟨i, hi⟩ := hv _ (List.mem_cons_self)
          simp only [runAct, hi, bind, Except.bind]
      rw [hsk]
      exact ih _ (fun a ha => hv a (List.mem_cons_of_mem _ ha)) hen

/-- A list of actions only succeeds if all its indices are in range and all its blocks are there. -/
theorem runActs_conv (e : Endian) (h : Header) (l : List Act) (s s' : RS F) (hr : runActs e h l s = .ok s') :
    (∀ a ∈ l, a.Valid s.data.elem.length) ∧ Enough h s.rest l := by
  induction l generalizing s with
  | nil => exact ⟨by simp, trivial⟩
  | cons a l ih =>
    rw [runActs, List.foldlM_cons] at hr
    cases a with
    | rd f j d =>
      cases hi : pyIndex s.data.elem.length j with
      | error err => simp [runAct, hi, bind, Except.bind] at hr
      | ok i =>
        cases hrd : s.read e h f i d with
        | error err => simp [runAct, hi, hrd, bind, Except.bind] at hr
        | ok s1 =>
          simp only [runAct, hi, hrd, bind, Except.bind] at hr
          obtain ⟨h1, h2⟩ := ih s1 hr
          rw [read_length hrd] at h1
          have h3 : s1.rest = s.rest.drop h.blk ∧ h.blk ≤ s.rest.length := by
            unfold RS.read at hrd
            dsimp only at hrd
            split at hrd
            · cases hrd
            · rw [← Except.ok.inj hrd]; exact ⟨rfl, by rw [Header.blk]; omega⟩
          rw [h3.1] at h2
          refine ⟨fun a ha => ?_, h3.2, h2⟩
          rcases List.mem_cons.mp ha with rfl | ha
          · exact ⟨i, hi⟩
          · exact h1 a ha
    | sk j =>
      have hsk : runAct e h s (.sk j) = .ok (s.skip h.blk) ∧ (Act.sk j).Valid s.data.elem.length := by
        cases j with
        | none => exact ⟨rfl, trivial⟩
        | some j =>
          cases hi : pyIndex s.data.elem.length j with
          | error err => simp [runAct, hi, bind, Except.bind] at hr
          | ok i => exact ⟨by simp only [runAct, hi, bind, Except.bind], i, hi⟩
      rw [hsk.1] at hr
      obtain ⟨h1, h2⟩ := ih _ hr
      refine ⟨fun a ha => ?_, h2⟩
      rcases List.mem_cons.mp ha with rfl | ha
      · exact hsk.2
      · exact h1 a ha

/-- Enough bytes for all blocks. -/
theorem enough_of_length (h : Header) (l : List Act) (rest : Bytes) (hl : l.length * h.blk ≤ rest.length) : Enough h rest l := by
  induction l generalizing rest with
  | nil => trivial
  | cons a l ih =>
    rw [List.length_cons, Nat.succ_mul] at hl
    have h1 : Enough h (rest.drop h.blk) l := ih _ (by rw [List.length_drop]; omega)
    cases a with
    | rd f j d => exact ⟨by omega, h1⟩
    | sk j => exact h1

theorem enough_get (h : Header) (l : List Act) (rest : Bytes) (hen : Enough h rest l) (k : Nat) (f : Fld) (j : Int) (d : Nat)
    (hk : l[k]? = some (.rd f j d)) : (k + 1) * h.blk ≤ rest.length ∨ h.blk = 0 := by
  induction l generalizing rest k with
  | nil => simp at hk
  | cons a l ih =>
    cases k with
    | zero =>
      have : a = .rd f j d := by simpa using hk
      subst this
      left; rw [Nat.zero_add, Nat.one_mul]; exact hen.1
    | succ k =>
      have hk' : l[k]? = some (.rd f j d) := by simpa using hk
      have h1 : Enough h (rest.drop h.blk) l := by
        cases a with
        | rd f j d => exact hen.2
        | sk j => exact hen
      rcases ih _ h1 k hk' with h2 | h2
      · rw [List.length_drop] at h2
        rcases Nat.eq_zero_or_pos h.blk with h0 | h0
        · right; exact h0
        · left
          rw [Nat.succ_mul (k + 1)]
          have : 0 < (k + 1) * h.blk := Nat.mul_pos (by omega) h0
          omega
      · right; exact h2

/-- The block from which a component was read: that of the last action for it. -/
theorem srcs_last (e : Endian) (h : Header) (len i : Nat) (l : List Act) (rest : Bytes) (f : Fld) (d : Nat) (k : Nat) (j : Int)
    (hk : l[k]? = some (.rd f j d)) (hj : pyIndex len j = .ok i)
    (hlast : ∀ (k' : Nat) (j' : Int), k < k' → l[k']? = some (Act.rd f j' d) → pyIndex len j' ≠ .ok i) :
    srcs (F := F) e h len i rest l f d = some (bufVal e h.wdsz ((rest.drop (k * h.blk)).take h.blk)) := by
  induction l generalizing rest k with
  | nil => simp at hk
  | cons a l ih =>
    cases k with
    | zero =>
      have : a = .rd f j d := by simpa using hk
      subst this
      have hn : ∀ (l : List Act) (rest : Bytes), (∀ (k' : Nat) (j' : Int), l[k']? = some (Act.rd f j' d) → pyIndex len j' ≠ .ok i) →
          srcs (F := F) e h len i rest l f d = none := by
        intro l
        induction l with
        | nil => intro _ _; rfl
        | cons a l ih2 =>
          intro rest hno
          rw [srcs, ih2 _ fun k' j' hk' => hno (k' + 1) j' (by simpa using hk')]
          cases a with
          | sk j => rfl
          | rd f' j' d' =>
            simp only [actSrc, Option.none_or]
            rw [if_neg]
            rintro ⟨rfl, rfl, h3⟩
            exact hno 0 j' rfl h3
      rw [srcs, hn l _ fun k' j' hk' => hlast (k' + 1) j' (by omega) (by simpa using hk')]
      simp [actSrc, hj]
    | succ k =>
      rw [srcs, ih _ k (by simpa using hk) fun k' j' hkk hk' => hlast (k' + 1) j' (by omega) (by simpa using hk')]
      simp only [Option.some_or, Option.some.injEq, List.drop_drop]
      congr 3
      rw [Nat.succ_mul]; omega

/-- Components for which there is no action keep their values. -/
theorem srcs_none (e : Endian) (h : Header) (len i : Nat) (f : Fld) (d : Nat) (l : List Act) (rest : Bytes)
    (hno : ∀ j, Act.rd f j d ∈ l → pyIndex len j ≠ .ok i) : srcs (F := F) e h len i rest l f d = none := by
  induction l generalizing rest with
  | nil => rfl
  | cons a l ih =>
    rw [srcs, ih _ fun j hj => hno j (List.mem_cons_of_mem _ hj)]
    cases a with
    | sk j => rfl
    | rd f' j' d' =>
      simp only [actSrc, Option.none_or]
      rw [if_neg]
      rintro ⟨rfl, rfl, h3⟩
      exact hno j' List.mem_cons_self h3

end Pymech
