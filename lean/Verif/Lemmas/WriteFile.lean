import Verif.Lemmas.List
import Verif.Lemmas.Bytes
import Verif.Spec.Field

/-!
# What `writenek` writes
-/

namespace Pymech

open Spec

variable {F : Type} [FloatTy F]

/-! ### Sequences of writes -/

theorem runWrites_ok (bs : List Bytes) : runWrites (bs.map .ok) = (bs.flatten, none) := by
  induction bs with
  | nil => rfl
  | cons b bs ih => simp [runWrites, ih]

theorem runWrites_none (l : List (Py Bytes)) (h : (runWrites l).2 = none) : ∃ bs : List Bytes, l = bs.map .ok := by
  induction l with
  | nil => exact ⟨[], rfl⟩
  | cons a l ih =>
    cases a with
    | error e => cases h
    | ok b =>
      obtain ⟨bs, rfl⟩ := ih h
      exact ⟨b :: bs, rfl⟩

/-! ### One block -/

omit [FloatTy F] in
theorem items_spec (a : Arr F) (d : Nat) (l : List F) (h : a.items d = .ok l) :
    d < a.n ∧ l.length = a.lz * a.ly * a.lx ∧
      ∀ z < a.lz, ∀ y < a.ly, ∀ x < a.lx, l[(z * a.ly + y) * a.lx + x]? = some (a.dat d z y x) := by
  unfold Arr.items at h
  split at h
  · next hd =>
    have := (Except.ok.inj h).symm
    subst this
    have h1 : ∀ z y : Nat, ((List.range a.lx).map fun x => a.dat d z y x).length = a.lx := by intro z y; simp
    have h2 : ∀ z : Nat, ((List.range a.ly).flatMap fun y => (List.range a.lx).map fun x => a.dat d z y x).length = a.ly * a.lx :=
      fun z => length_flatMap_range _ a.lx _ fun y _ => h1 z y
    refine ⟨hd, ?_, ?_⟩
    · rw [length_flatMap_range _ (a.ly * a.lx) _ fun z _ => h2 z, Nat.mul_assoc]
    · intro z hz y hy x hx
      have hyx := row_lt hy hx
      rw [show (z * a.ly + y) * a.lx + x = z * (a.ly * a.lx) + (y * a.lx + x) by ring,
        getElem?_flatMap_range _ _ _ (fun z _ => h2 z) z _ hz hyx,
        getElem?_flatMap_range _ _ _ (fun y _ => h1 z y) y x hy hx]
      simp [hx]
  · cases h

/-- The byte order of the file. -/
def fileEndian (native : Endian) (o : Option Endian) : Endian := o.getD native

/-- `swap` in `writenek`. -/
def swapB (native : Endian) (o : Option Endian) : Bool := match o with
  | some e => decide (e ≠ native)
  | none => false

theorem item_file (native : Endian) (o : Option Endian) (k n : Nat) :
    item native (swapB native o) k n = encW (fileEndian native o) k n := by
  rw [item_eq]
  cases o with
  | none => rfl
  | some e => rw [swapB, outEndian_swap]; rfl

theorem wArr_eq (native : Endian) (o : Option Endian) (wdsz : Nat) (l : List F) :
    wArr native (swapB native o) wdsz l =
      l.flatMap fun x => encW (fileEndian native o) (wordSize F wdsz) (wordBits wdsz x) := by
  unfold wArr wordSize wordBits
  split <;> simp only [item_file, *, if_true, if_false]

theorem wArr_length (native : Endian) (o : Option Endian) (wdsz : Nat) (l : List F) :
    (wArr native (swapB native o) wdsz l).length = l.length * wordSize F wdsz := by
  rw [wArr_eq, flatMap_length_const (wordSize F wdsz)]
  intro x _; rw [encW_length]

theorem wArr_holds (native : Endian) (o : Option Endian) (wdsz : Nat) (a : Arr F) (d : Nat) (l : List F)
    (h : a.items d = .ok l) : Holds (fileEndian native o) wdsz a d (wArr native (swapB native o) wdsz l) := by
  obtain ⟨-, h1, h2⟩ := items_spec a d l h
  refine ⟨by rw [wArr_length, h1], fun z hz y hy x hx => ?_⟩
  rw [wArr_eq]
  have := block_flatMap (wordSize F wdsz) (fun x => encW (fileEndian native o) (wordSize F wdsz) (wordBits wdsz x)) l
    (fun x _ => encW_length _ _ _) _ _ (h2 z hz y hy x hx) []
  rwa [List.append_nil] at this

/-! ### All blocks -/

/-- The write of one block. -/
def blockW (native : Endian) (M : HexaData F) (t : Fld × Int × Nat) : Py Bytes :=
  (M.comp t.1 t.2.1 t.2.2).map (wArr native (swapB native M.endian) M.wdsz)

/-- The write of one pair of extreme values. -/
def pairW (native : Endian) (M : HexaData F) (t : Fld × Int × Nat) : Py Bytes := do
  wMinMax native (swapB native M.endian) (← M.comp t.1 t.2.1 t.2.2)

/-- The pairs of extreme values: elements always in the outer loop. -/
def Spec.pairs (order : List Int) (v : Var) : List (Fld × Int × Nat) :=
  [Fld.pos, .vel, .pres, .temp, .scal].flatMap fun f => order.flatMap fun n => (List.range (count v f)).map fun d => (f, n, d)

/-- The writes after the header. -/
def bodyW (native : Endian) (M : HexaData F) : List (Py Bytes) :=
  [.ok (item native (swapB native M.endian) 4 (Flt.ofRat (eb := 8) (mb := 23) false (654321 / 100000)).bits),
    .ok (M.elmap.flatMap fun i => item native (swapB native M.endian) 4 (i32Bits i))] ++
  (blocks M.elmap M.var).map (blockW native M) ++
  (if M.ndim = 3 then (pairs M.elmap M.var).map (pairW native M) else [])

/-- The header written. -/
def headerW (M : HexaData F) : Py Header :=
  Header.make M.wdsz M.lr1.x M.lr1.y M.lr1.z M.nel M.nel M.time M.istep 0 1 []
    (some ⟨M.var.pos, M.var.vel, M.var.pres, M.var.temp, M.var.scal⟩)

theorem writenek_eq (native : Endian) (M : HexaData F) :
    writenek native M = match headerW M with
      | .error e => ([], some e)
      | .ok h => runWrites (.ok h.asBytes :: bodyW native M) := by
  unfold writenek headerW bodyW
  cases Header.make M.wdsz M.lr1.x M.lr1.y M.lr1.z M.nel M.nel M.time M.istep 0 1 []
    (some ⟨M.var.pos, M.var.vel, M.var.pres, M.var.temp, M.var.scal⟩) with
  | error e => rfl
  | ok h =>
    dsimp only
    congr 1
    have e1 : (blocks M.elmap M.var).map (blockW native M) =
        chunksEM M M.var.pos (fun n d => blockW native M (.pos, n, d)) ++ chunksEM M M.var.vel (fun n d => blockW native M (.vel, n, d)) ++
        chunksEM M M.var.pres (fun n d => blockW native M (.pres, n, d)) ++ chunksEM M M.var.temp (fun n d => blockW native M (.temp, n, d)) ++
        ((List.range M.var.scal).flatMap fun d => M.elmap.map fun n => blockW native M (.scal, n, d)) := by
      simp [blocks, chunksEM, List.map_flatMap, count, Function.comp_def]
    have e2 : (pairs M.elmap M.var).map (pairW native M) =
        chunksEM M M.var.pos (fun n d => pairW native M (.pos, n, d)) ++ chunksEM M M.var.vel (fun n d => pairW native M (.vel, n, d)) ++
        chunksEM M M.var.pres (fun n d => pairW native M (.pres, n, d)) ++ chunksEM M M.var.temp (fun n d => pairW native M (.temp, n, d)) ++
        chunksEM M M.var.scal (fun n d => pairW native M (.scal, n, d)) := by
      simp [pairs, chunksEM, List.map_flatMap, count, Function.comp_def]
    rw [e1, e2]
    simp only [List.cons_append, List.nil_append, List.append_assoc]
    rfl

/-- Content of a successfully written file. -/
theorem writenek_none (native : Endian) (M : HexaData F) (h : (writenek native M).2 = none) :
    ∃ (hd : Header) (bs ps : List Bytes), headerW M = .ok hd ∧
      (blocks M.elmap M.var).map (blockW native M) = bs.map .ok ∧
      (if M.ndim = 3 then (pairs M.elmap M.var).map (pairW native M) else []) = ps.map .ok ∧
      writenek native M = (hd.asBytes ++ (encW (fileEndian native M.endian) 4 (Flt.ofRat (eb := 8) (mb := 23) false (654321 / 100000)).bits ++
        ((M.elmap.flatMap fun i => encW (fileEndian native M.endian) 4 (i32Bits i)) ++ (bs.flatten ++ ps.flatten))), none) := by
  rw [writenek_eq] at h ⊢
  cases hh : headerW M with
  | error e => rw [hh] at h; cases h
  | ok hd =>
    rw [hh] at h
    dsimp only at h ⊢
    obtain ⟨l, hl⟩ := runWrites_none _ h
    rw [bodyW] at hl
    obtain ⟨x, l1, rfl, hx, hl1⟩ := List.map_eq_cons_iff.mp hl.symm
    rw [eq_comm] at hl1
    rw [List.append_assoc, List.cons_append, List.cons_append, List.nil_append] at hl1
    obtain ⟨y, l2, rfl, hy, hl2⟩ := List.map_eq_cons_iff.mp hl1.symm
    obtain ⟨z, l3, rfl, hz, hl3⟩ := List.map_eq_cons_iff.mp hl2
    obtain ⟨bs, ps, rfl, hb, hp⟩ := List.map_eq_append_iff.mp hl3
    refine ⟨hd, bs, ps, rfl, hb.symm, hp.symm, ?_⟩
    rw [bodyW, ← hb, ← hp]
    have : (Except.ok hd.asBytes : Py Bytes) :: ([.ok (item native (swapB native M.endian) 4 (Flt.ofRat (eb := 8) (mb := 23) false (654321 / 100000)).bits),
        .ok (M.elmap.flatMap fun i => item native (swapB native M.endian) 4 (i32Bits i))] ++ bs.map .ok ++ ps.map .ok) =
        (hd.asBytes :: item native (swapB native M.endian) 4 (Flt.ofRat (eb := 8) (mb := 23) false (654321 / 100000)).bits ::
          (M.elmap.flatMap fun i => item native (swapB native M.endian) 4 (i32Bits i)) :: (bs ++ ps)).map .ok := by
      simp
    rw [this, runWrites_ok]
    simp only [item_file, List.flatten_cons, List.flatten_append]

theorem blockW_ok (native : Endian) (M : HexaData F) (f : Fld) (n : Int) (d : Nat) (b : Bytes)
    (h : blockW native M (f, n, d) = .ok b) :
    ∃ i, pyIndex M.elem.length (n - 1) = .ok i ∧ d < ((M.el i).arr f).n ∧
      Holds (fileEndian native M.endian) M.wdsz ((M.el i).arr f) d b := by
  unfold blockW HexaData.comp at h
  dsimp only at h
  cases hi : pyIndex M.elem.length (n - 1) with
  | error e => rw [hi] at h; cases h
  | ok i =>
    rw [hi] at h
    simp only [bind, Except.bind] at h
    cases hit : ((M.el i).arr f).items d with
    | error e => rw [hit] at h; cases h
    | ok l =>
      rw [hit] at h
      rw [← Except.ok.inj h]
      exact ⟨i, rfl, (items_spec _ d l hit).1, wArr_holds native M.endian M.wdsz _ d l hit⟩

/-- Every component of a stored array can be written. -/
theorem blockW_exists (native : Endian) (M : HexaData F) (f : Fld) (n : Int) (d i : Nat)
    (hi : pyIndex M.elem.length (n - 1) = .ok i) (hd : d < ((M.el i).arr f).n) : ∃ b, blockW native M (f, n, d) = .ok b := by
  unfold blockW HexaData.comp Arr.items
  simp only [hi, bind, Except.bind]
  rw [if_pos hd]
  exact ⟨_, rfl⟩

theorem pairW_length (native : Endian) (M : HexaData F) (t : Fld × Int × Nat) (b : Bytes) (h : pairW native M t = .ok b) :
    b.length = 8 := by
  unfold pairW at h
  cases hc : M.comp t.1 t.2.1 t.2.2 with
  | error e => rw [hc] at h; cases h
  | ok l =>
    rw [hc] at h
    simp only [bind, Except.bind] at h
    unfold wMinMax at h
    split at h
    · cases h
    · rw [← Except.ok.inj h, List.length_append, item_length, item_length]

end Pymech
