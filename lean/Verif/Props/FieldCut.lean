import Verif.Props.Field
import Verif.Lemmas.Basic

/-!
# C118: what `writenek` leaves behind when it fails

`writenek` of `/repo/src/pymech/neksuite/field.py`.
-/

set_option autoImplicit false

namespace Pymech

open Spec

variable {F G : Type} [FloatTy F] [FloatTy G]

/-- `n` names element `el` in an element map: elements are counted from 1, and Python counts numbers below 1 from the end. -/
def Spec.Called (M : HexaData F) (n : Int) (el : Elem F) : Prop :=
  ∃ i : Nat, M.elem[i]? = some el ∧ ((i : Int) = n - 1 ∨ (i : Int) = n - 1 + M.elem.length)

/-- The elements named by the element map exist and their arrays hold as many components as announced, in three dimensions
with at least one point. -/
def Spec.Stocked (M : HexaData F) : Prop :=
  ∀ f, 0 < count M.var f → ∀ n ∈ M.elmap, ∃ el, Called M n el ∧ count M.var f ≤ (el.arr f).n ∧
    (M.ndim = 3 → 0 < (el.arr f).lz * (el.arr f).ly * (el.arr f).lx)

omit [FloatTy F] in
theorem called_iff (M : HexaData F) (n : Int) (el : Elem F) :
    Called M n el ↔ ∃ i, pyIndex M.elem.length (n - 1) = .ok i ∧ M.elem[i]? = some el := by
  constructor
  · rintro ⟨i, h1, h2⟩
    have hi : i < M.elem.length := (List.getElem?_eq_some_iff.mp h1).1
    exact ⟨i, by rw [pyIndex_ok_iff]; omega, h1⟩
  · rintro ⟨i, h1, h2⟩
    rw [pyIndex_ok_iff] at h1
    exact ⟨i, h2, by omega⟩

theorem el_of_get {M : HexaData F} {i : Nat} {el : Elem F} (h : M.elem[i]? = some el) : M.el i = el := by
  unfold HexaData.el
  rw [List.getD_eq_getElem?_getD, h]
  rfl

theorem blockW_iff (native : Endian) (M : HexaData F) (f : Fld) (n : Int) (d : Nat) :
    (∃ b, blockW native M (f, n, d) = .ok b) ↔ ∃ el, Called M n el ∧ d < (el.arr f).n := by
  constructor
  · rintro ⟨b, hb⟩
    obtain ⟨i, hi, hd, -⟩ := blockW_ok native M f n d b hb
    have hlt := pyIndex_ok_iff.mp hi
    have hlt : i < M.elem.length := by omega
    refine ⟨M.elem[i], (called_iff _ _ _).mpr ⟨i, hi, List.getElem?_eq_getElem hlt⟩, ?_⟩
    rwa [el_of_get (List.getElem?_eq_getElem hlt)] at hd
  · rintro ⟨el, hc, hd⟩
    obtain ⟨i, hi, hel⟩ := (called_iff _ _ _).mp hc
    exact blockW_exists native M f n d i hi (by rw [el_of_get hel]; exact hd)

theorem pairW_iff (native : Endian) (M : HexaData F) (f : Fld) (n : Int) (d : Nat) :
    (∃ b, pairW native M (f, n, d) = .ok b) ↔
      ∃ el, Called M n el ∧ d < (el.arr f).n ∧ 0 < (el.arr f).lz * (el.arr f).ly * (el.arr f).lx := by
  unfold pairW HexaData.comp
  dsimp only
  cases hi : pyIndex M.elem.length (n - 1) with
  | error e =>
    refine ⟨?_, ?_⟩
    · rintro ⟨b, hb⟩
      cases hb
    · rintro ⟨el, hc, -⟩
      obtain ⟨i, hi', -⟩ := (called_iff _ _ _).mp hc
      rw [hi] at hi'
      cases hi'
  | ok i =>
    have hlt := pyIndex_ok_iff.mp hi
    have hlt : i < M.elem.length := by omega
    have hget := List.getElem?_eq_getElem hlt
    have hcall : ∀ el, Called M n el ↔ el = M.el i := by
      intro el
      rw [called_iff, hi]
      constructor
      · rintro ⟨j, hj, hel⟩
        cases hj
        exact (el_of_get hel).symm
      · rintro rfl
        exact ⟨i, rfl, by rw [hget, el_of_get hget]⟩
    simp only [hcall, exists_eq_left, bind, Except.bind]
    cases hit : ((M.el i).arr f).items d with
    | error e =>
      refine ⟨fun ⟨b, hb⟩ => (nomatch hb), fun ⟨hd, _⟩ => ?_⟩
      unfold Arr.items at hit
      rw [if_pos hd] at hit
      cases hit
    | ok l =>
      obtain ⟨hd, hl, -⟩ := items_spec _ d l hit
      simp only [hd, true_and, ← hl]
      cases l with
      | nil => simp [wMinMax]
      | cons x xs => simp [wMinMax]

theorem runWrites_every (l : List (Py Bytes)) : (runWrites l).2 = none ↔ ∀ a ∈ l, ∃ b, a = .ok b := by
  induction l with
  | nil => simp [runWrites]
  | cons a l ih =>
    cases a with
    | error y => simp [runWrites]
    | ok b =>
      simp only [runWrites, List.mem_cons, forall_eq_or_imp]
      rw [ih]
      exact ⟨fun h => ⟨⟨b, rfl⟩, h⟩, fun h => h.2⟩

/-- **C118**, the part that holds: of a field with a known word size the file is written completely exactly if the elements
named by the element map hold what is announced. Missing: otherwise an incomplete file is left behind, see `C118_false`. -/
theorem C118_partial (native : Endian) (M : HexaData F) (h : M.wdsz = 4 ∨ M.wdsz = 8) :
    (writenek native M).2 = none ↔ Stocked M := by
  obtain ⟨hd, h1, -⟩ := headerW_ok M h
  rw [writenek_eq, h1]
  dsimp only
  rw [runWrites_every, bodyW]
  constructor
  · intro hall f hf n hn
    have hb : ∀ d < count M.var f, ∃ b, blockW native M (f, n, d) = .ok b := fun d hd =>
      hall _ (List.mem_cons_of_mem _ (List.mem_append_left _ (List.mem_append_right _
        (List.mem_map.mpr ⟨_, (mem_blocks _ _ f n d).mpr ⟨hn, hd⟩, rfl⟩))))
    obtain ⟨el, hc, hlast⟩ := (blockW_iff native M f n (count M.var f - 1)).mp (hb _ (by omega))
    refine ⟨el, hc, by omega, fun h3 => ?_⟩
    have hp : ∃ b, pairW native M (f, n, 0) = .ok b :=
      hall _ (List.mem_cons_of_mem _ (List.mem_append_right _ (by
        rw [if_pos h3]
        exact List.mem_map.mpr ⟨_, (mem_pairs _ _ f n 0).mpr ⟨hn, hf⟩, rfl⟩)))
    obtain ⟨el', hc', -, hpos⟩ := (pairW_iff native M f n 0).mp hp
    obtain ⟨i, hi, hel⟩ := (called_iff _ _ _).mp hc
    obtain ⟨i', hi', hel'⟩ := (called_iff _ _ _).mp hc'
    rw [hi] at hi'
    cases hi'
    rw [hel] at hel'
    cases hel'
    exact hpos
  · intro hS a ha
    rcases List.mem_cons.mp ha with rfl | ha
    · exact ⟨_, rfl⟩
    rcases List.mem_append.mp ha with ha | ha
    · rcases List.mem_append.mp ha with ha | ha
      · simp only [List.mem_cons, List.not_mem_nil, or_false] at ha
        rcases ha with rfl | rfl <;> exact ⟨_, rfl⟩
      · obtain ⟨⟨f, n, d⟩, ht, rfl⟩ := List.mem_map.mp ha
        obtain ⟨hn, hd⟩ := (mem_blocks _ _ f n d).mp ht
        obtain ⟨el, hc, hcount, -⟩ := hS f (by omega) n hn
        exact (blockW_iff native M f n d).mpr ⟨el, hc, by omega⟩
    · split at ha
      · rename_i h3
        obtain ⟨⟨f, n, d⟩, ht, rfl⟩ := List.mem_map.mp ha
        obtain ⟨hn, hd⟩ := (mem_pairs _ _ f n d).mp ht
        obtain ⟨el, hc, hcount, hpos⟩ := hS f (by omega) n hn
        exact (pairW_iff native M f n d).mpr ⟨el, hc, by omega, hpos h3⟩
      · cases ha

/-- **C118** is false in the code: whatever is missing, the file has been opened and at least header and element map have been
written before the exception is raised. -/
theorem C118_false (native : Endian) (M : HexaData F) (h : M.wdsz = 4 ∨ M.wdsz = 8) (hS : ¬ Stocked M) :
    ∃ err, (writenek native M).2 = some err ∧ 136 + 4 * M.elmap.length ≤ (writenek native M).1.length := by
  have h2 : (writenek native M).2 ≠ none := fun hx => hS ((C118_partial native M h).mp hx)
  obtain ⟨err, he⟩ := Option.ne_none_iff_exists'.mp h2
  refine ⟨err, he, ?_⟩
  obtain ⟨hd, h1, -⟩ := headerW_ok M h
  rw [writenek_eq, h1]
  dsimp only
  rw [bodyW]
  simp only [List.cons_append, List.nil_append, runWrites, List.length_append]
  rw [Header.asBytes, encodeT_length, ljust, List.length_append, List.length_replicate, item_length,
    flatMap_length_const 4 _ M.elmap (fun i _ => item_length _ _ _ _)]
  omega

/-! ### The file left behind -/

/-- The array with the announced number of components, whatever the additional ones contain. -/
def Spec.padded (k : Nat) (a : Arr F) : Arr F := { a with n := max a.n k }

/-- The field with arrays of the announced size. -/
def Spec.Intended (M : HexaData F) : HexaData F :=
  { M with elem := M.elem.map fun el =>
      { el with pos := padded M.var.pos el.pos, vel := padded M.var.vel el.vel, pres := padded M.var.pres el.pres,
                temp := padded M.var.temp el.temp, scal := padded M.var.scal el.scal } }

theorem runWrites_stop {α : Type} (l : List α) (g : α → Py Bytes) (bs : List Bytes) (t : List (Py Bytes))
    (h : List.Forall₂ (fun a b => g a = .error .indexError ∨ g a = .ok b) l bs) :
    l.map g = bs.map .ok ∨ ((runWrites (l.map g ++ t)).2 = some .indexError ∧ ∃ cs ds, bs = cs ++ ds ∧ ds ≠ [] ∧
      (runWrites (l.map g ++ t)).1 = cs.flatten) := by
  induction h with
  | nil => exact .inl rfl
  | @cons a b l bs hab _ ih =>
    rw [List.map_cons, List.cons_append]
    rcases hab with he | ho
    · right
      rw [he]
      exact ⟨rfl, [], b :: bs, rfl, by simp, rfl⟩
    · rw [ho]
      rcases ih with ih | ⟨h1, cs, ds, h2, h3, h4⟩
      · exact .inl (by rw [ih, List.map_cons])
      · right
        simp only [runWrites]
        exact ⟨h1, b :: cs, ds, by rw [h2, List.cons_append], h3, by rw [h4, List.flatten_cons]⟩

omit [FloatTy F] in
theorem arr_padded (M : HexaData F) [Zero F] (i : Nat) (hi : i < M.elem.length) (f : Fld) :
    ((Intended M).el i).arr f = padded (count M.var f) ((M.el i).arr f) := by
  unfold HexaData.el Intended
  rw [List.getD_eq_getElem?_getD, List.getElem?_map, List.getD_eq_getElem?_getD, List.getElem?_eq_getElem hi]
  cases f <;> rfl

theorem blockW_intended (native : Endian) (M : HexaData F) (t : Fld × Int × Nat) (b : Bytes)
    (h : blockW native (Intended M) t = .ok b) : blockW native M t = .error .indexError ∨ blockW native M t = .ok b := by
  obtain ⟨f, n, d⟩ := t
  unfold blockW HexaData.comp at h ⊢
  have hlen : (Intended M).elem.length = M.elem.length := by
    unfold Intended
    rw [List.length_map]
  rw [hlen] at h
  dsimp only at h ⊢
  cases hi : pyIndex M.elem.length (n - 1) with
  | error e => rw [hi] at h; cases h
  | ok i =>
    rw [hi] at h
    have hlt := (pyIndex_ok_iff.mp hi).1
    simp only [bind, Except.bind] at h ⊢
    rw [arr_padded M i hlt f] at h
    by_cases hd : d < ((M.el i).arr f).n
    · right
      rw [← h]
      unfold Arr.items
      rw [if_pos hd, if_pos (show d < (padded (count M.var f) ((M.el i).arr f)).n from lt_of_lt_of_le hd (le_max_left _ _))]
      rfl
    · left
      unfold Arr.items
      rw [if_neg hd]
      rfl

/-- A file left behind because arrays have fewer components than announced is refused by `readnek`, whatever the machine and the
type of its arrays. -/
theorem C118_refused (native native' : Endian) (M : HexaData F) (hM : Storable (Intended M)) (hw : WordOK F M.wdsz)
    (hp : 0 < M.lr1.x * M.lr1.y * M.lr1.z) (hS : ¬ Stocked M) :
    (writenek native M).2 = some .indexError ∧ ∃ err, (readnek native' [] (writenek native M).1 : Py (HexaData G)) = .error err := by
  obtain ⟨content, hc1, -, hc2, -⟩ := C12_truncated (G := G) native native' (Intended M) hM hw
  obtain ⟨hd, bs, ps, h1, h2, h3, h4⟩ := writenek_none native (Intended M) (by rw [hc1])
  have hne : (writenek native M).2 ≠ none := fun hx => hS ((C118_partial native M hM.wdsz).mp hx)
  have h1' : headerW M = .ok hd := h1
  have hF : List.Forall₂ (fun t b => blockW native M t = .error .indexError ∨ blockW native M t = .ok b) (blocks M.elmap M.var) bs :=
    (forall₂_of_map _ _ _ h2).imp fun t b ht => blockW_intended native M t b ht
  have hsize : ∀ b ∈ bs, b.length = M.lr1.x * M.lr1.y * M.lr1.z * M.wdsz := by
    intro b hb
    have hb' : (Except.ok b : Py Bytes) ∈ (blocks (Intended M).elmap (Intended M).var).map (blockW native (Intended M)) := by
      rw [h2]
      exact List.mem_map.mpr ⟨b, hb, rfl⟩
    obtain ⟨⟨f, n, d⟩, ht, hbl⟩ := List.mem_map.mp hb'
    obtain ⟨i, hi, -, hh⟩ := blockW_ok native (Intended M) f n d b hbl
    have hi' := (pyIndex_ok_iff.mp hi).1
    rw [hM.len] at hi'
    have hcnt := ((mem_blocks _ _ f n d).mp ht).2
    obtain ⟨⟨s1, s2, s3⟩, -⟩ := hM.shape i hi' f (by omega)
    rw [hh.1, s1, s2, s3]
    have : wordSize F (Intended M).wdsz = M.wdsz := hw.size
    rw [this]
    change M.lr1.z * M.lr1.y * M.lr1.x * M.wdsz = _
    ring
  have hwd : 0 < M.wdsz := by
    have : M.wdsz = 4 ∨ M.wdsz = 8 := hM.wdsz
    omega
  have hlenb : bs.length = (blocks M.elmap M.var).length := by
    have := congrArg List.length h2
    rw [List.length_map, List.length_map] at this
    exact this.symm
  have hbody : writenek native M = runWrites (.ok hd.asBytes ::
      .ok (item native (swapB native M.endian) 4 (Flt.ofRat (eb := 8) (mb := 23) false (654321 / 100000)).bits) ::
      .ok (M.elmap.flatMap fun i => item native (swapB native M.endian) 4 (i32Bits i)) ::
      ((blocks M.elmap M.var).map (blockW native M) ++ (if M.ndim = 3 then (pairs M.elmap M.var).map (pairW native M) else []))) := by
    rw [writenek_eq, h1']
    dsimp only
    rw [bodyW]
    simp only [List.cons_append, List.nil_append]
  rcases runWrites_stop _ (blockW native M) bs
      (if M.ndim = 3 then (pairs M.elmap M.var).map (pairW native M) else []) hF with hall | ⟨he, cs, ds, hcd, hds, hcont⟩
  · exfalso
    apply hS
    intro f hf n hn
    have hb : ∃ b, blockW native M (f, n, count M.var f - 1) = .ok b := by
      have : blockW native M (f, n, count M.var f - 1) ∈ bs.map (Except.ok (ε := PyErr)) := by
        rw [← hall]
        exact List.mem_map.mpr ⟨_, (mem_blocks _ _ f n _).mpr ⟨hn, by omega⟩, rfl⟩
      obtain ⟨b, -, hb⟩ := List.mem_map.mp this
      exact ⟨b, hb.symm⟩
    obtain ⟨el, hc, hlast⟩ := (blockW_iff native M f n _).mp hb
    refine ⟨el, hc, by omega, fun _ => ?_⟩
    obtain ⟨i, hi, hel⟩ := (called_iff _ _ _).mp hc
    have hi' := (pyIndex_ok_iff.mp hi).1
    have hil : i < (Intended M).nel := by
      rw [← hM.len]
      unfold Intended
      rw [List.length_map]
      exact hi'
    obtain ⟨⟨s1, s2, s3⟩, -⟩ := hM.shape i hil f hf
    rw [arr_padded M i hi' f, el_of_get hel] at s1 s2 s3
    change (el.arr f).lx = M.lr1.x at s1
    change (el.arr f).ly = M.lr1.y at s2
    change (el.arr f).lz = M.lr1.z at s3
    rw [s1, s2, s3]
    calc 0 < M.lr1.x * M.lr1.y * M.lr1.z := hp
      _ = _ := by ring
  · obtain ⟨hd', e1, hlen132, -⟩ := hM.header_read
    rw [h1] at e1
    cases e1
    refine ⟨?_, ?_⟩
    · rw [hbody]
      simp only [runWrites]
      exact he
    · have hpre : (writenek native M).1 = content.take (136 + 4 * M.nel + cs.flatten.length) := by
        rw [hc1] at h4
        have h5 := (Prod.mk.inj h4).1
        rw [h5, hbody]
        simp only [runWrites]
        rw [hcont, hcd, List.flatten_append]
        simp only [item_file]
        have hml : (M.elmap.flatMap fun i => encW (fileEndian native M.endian) 4 (i32Bits i)).length = 4 * M.nel := by
          rw [flatMap_length_const 4 _ M.elmap (fun i _ => encW_length _ _ _)]
          have : M.elmap.length = M.nel := hM.mapLen
          omega
        have hassoc : ∀ a b c d e f : Bytes, a ++ (b ++ (c ++ ((d ++ e) ++ f))) = (a ++ (b ++ (c ++ d))) ++ (e ++ f) := by
          intro a b c d e f
          simp
        symm
        refine Eq.trans (congrArg (List.take _) (hassoc _ _ _ _ _ _)) (List.take_left' ?_)
        simp only [List.length_append, hlen132, encW_length]
        change 132 + (4 + ((M.elmap.flatMap fun i => encW (fileEndian native M.endian) 4 (i32Bits i)).length + _)) = _
        rw [hml]
        omega
      rw [hpre]
      apply hc2
      have hcs : cs.flatten.length = cs.length * (M.lr1.x * M.lr1.y * M.lr1.z * M.wdsz) :=
        flatten_length_const _ cs fun b hb => hsize b (by rw [hcd]; exact List.mem_append_left _ hb)
      have hlt : cs.length < M.nel * (M.var.pos + M.var.vel + M.var.pres + M.var.temp + M.var.scal) := by
        have h5 : 0 < ds.length := List.length_pos_iff.mpr hds
        rw [hcd, List.length_append, blocks_length, show M.elmap.length = M.nel from hM.mapLen] at hlenb
        omega
      have := Nat.mul_lt_mul_of_pos_right hlt (Nat.mul_pos hp hwd)
      change _ < 132 + 4 + 4 * M.nel + M.nel * (M.var.pos + M.var.vel + M.var.pres + M.var.temp + M.var.scal) *
        (M.lr1.x * M.lr1.y * M.lr1.z * M.wdsz)
      rw [hcs]
      omega

/-! ### Examples -/

namespace Samples

/-- Three scalars announced, two stored. -/
def lacking : HexaData F64 := { field2 with var := { field2.var with scal := 3 } }

theorem lacking_ok : Storable (Intended lacking) where
  wdsz := by decide +kernel
  len := by decide +kernel
  shape := shapes _ (by decide +kernel)
  map := by decide +kernel
  small := by decide +kernel
  dim := by decide +kernel
  pos := by decide +kernel
  vel := by decide +kernel
  pres := by decide +kernel
  temp := by decide +kernel
  something := by decide +kernel
  mapLen := by decide +kernel
  mapAll := by decide +kernel
  points := by decide +kernel
  fits := fitsB _ (by decide +kernel)

theorem lacking_not : ¬ Stocked lacking := by
  rw [← C118_partial .little lacking (by decide +kernel)]
  decide +kernel

end Samples

example : (writenek .little Samples.lacking).2 = some .indexError ∧
    ∃ err, (readnek .big [] (writenek .little Samples.lacking).1 : Py (HexaData F32)) = .error err :=
  C118_refused .little .big Samples.lacking Samples.lacking_ok (.inr rfl) (by decide) Samples.lacking_not

example : Stocked Samples.field3 := (C118_partial .big Samples.field3 (by decide)).mp (by decide +kernel)

end Pymech
