import Verif.Lemmas.ReadFile
import Verif.Lemmas.WriteFile
import Verif.Props.Tag

/-!
# Reading what was written
-/

namespace Pymech

open Spec

variable {F G : Type} [FloatTy F] [FloatTy G]

/-! ### Lists -/

theorem exists_last {α : Type} [DecidableEq α] (l : List α) (a : α) (h : a ∈ l) :
    ∃ k : Nat, l[k]? = some a ∧ ∀ k' : Nat, k < k' → l[k']? ≠ some a := by
  induction l with
  | nil => simp at h
  | cons b l ih =>
    by_cases hm : a ∈ l
    · obtain ⟨k, h1, h2⟩ := ih hm
      refine ⟨k + 1, by simpa using h1, fun k' hk' => ?_⟩
      obtain ⟨m, rfl⟩ := Nat.exists_eq_succ_of_ne_zero (by omega : k' ≠ 0)
      simpa using h2 m (by omega)
    · have hb : b = a := by
        rcases List.mem_cons.mp h with h | h
        · exact h.symm
        · exact absurd h hm
      refine ⟨0, by simp [hb], fun k' hk' hc => ?_⟩
      obtain ⟨m, rfl⟩ := Nat.exists_eq_succ_of_ne_zero (by omega : k' ≠ 0)
      exact hm (List.mem_of_getElem? (by simpa using hc))

/-- The elements of the data section. -/
theorem mem_blocks (order : List Int) (v : Var) (f : Fld) (n : Int) (d : Nat) :
    (f, n, d) ∈ blocks order v ↔ n ∈ order ∧ d < count v f := by
  unfold blocks
  rw [List.mem_append]
  simp only [List.mem_flatMap, List.mem_map, List.mem_range, Prod.mk.injEq, List.mem_cons, List.not_mem_nil, or_false]
  constructor
  · rintro (⟨f', hf', n', hn', d', hd', rfl, rfl, rfl⟩ | ⟨d', hd', n', hn', rfl, rfl, rfl⟩)
    · exact ⟨hn', hd'⟩
    · exact ⟨hn', hd'⟩
  · rintro ⟨hn, hd⟩
    cases f
    case scal => right; exact ⟨d, hd, n, hn, rfl, rfl, rfl⟩
    all_goals left; exact ⟨_, by simp, n, hn, d, hd, rfl, rfl, rfl⟩

theorem blocks_length (order : List Int) (v : Var) :
    (blocks order v).length = order.length * (v.pos + v.vel + v.pres + v.temp + v.scal) := by
  have h1 : ∀ f, (order.flatMap fun n => (List.range (count v f)).map fun d => (f, n, d)).length = order.length * count v f := by
    intro f
    simp [List.length_flatMap]
  unfold blocks
  simp only [List.length_append, List.flatMap_cons, List.flatMap_nil, h1, List.length_nil]
  simp only [count]
  have h2 : ((List.range v.scal).flatMap fun d => order.map fun n => (Fld.scal, n, d)).length = v.scal * order.length := by
    simp [List.length_flatMap]
  rw [h2]; ring

theorem pairs_length (order : List Int) (v : Var) :
    (pairs order v).length = order.length * (v.pos + v.vel + v.pres + v.temp + v.scal) := by
  have h1 : ∀ f, (order.flatMap fun n => (List.range (count v f)).map fun d => (f, n, d)).length = order.length * count v f := by
    intro f
    simp [List.length_flatMap]
  unfold pairs
  simp only [List.length_append, List.flatMap_cons, List.flatMap_nil, h1, List.length_nil]
  simp only [count]
  ring

theorem mem_pairs (order : List Int) (v : Var) (f : Fld) (n : Int) (d : Nat) :
    (f, n, d) ∈ pairs order v ↔ n ∈ order ∧ d < count v f := by
  unfold pairs
  simp only [List.mem_flatMap, List.mem_map, List.mem_range, Prod.mk.injEq, List.mem_cons, List.not_mem_nil, or_false]
  constructor
  · rintro ⟨f', hf', n', hn', d', hd', rfl, rfl, rfl⟩; exact ⟨hn', hd'⟩
  · rintro ⟨hn, hd⟩
    refine ⟨f, ?_, n, hn, d, hd, rfl, rfl, rfl⟩
    cases f <;> simp

/-! ### Writing succeeds -/

theorem pyIndex_elmap {nel : Nat} {n : Int} (h1 : 1 ≤ n) (h2 : n ≤ nel) : pyIndex nel (n - 1) = .ok (n - 1).toNat := by
  unfold pyIndex
  rw [if_pos (by omega), if_pos (by omega)]

theorem map_ok_of_forall {α : Type} (l : List α) (g : α → Py Bytes) (h : ∀ x ∈ l, ∃ b, g x = .ok b) :
    ∃ bs : List Bytes, l.map g = bs.map .ok := by
  induction l with
  | nil => exact ⟨[], rfl⟩
  | cons a l ih =>
    obtain ⟨b, hb⟩ := h a List.mem_cons_self
    obtain ⟨bs, hbs⟩ := ih fun x hx => h x (List.mem_cons_of_mem _ hx)
    exact ⟨b :: bs, by simp [hb, hbs]⟩

omit [FloatTy F] in
theorem headerW_ok (M : HexaData F) (h : M.wdsz = 4 ∨ M.wdsz = 8) : ∃ hd, headerW M = .ok hd ∧
    hd = ⟨M.wdsz, M.lr1.x, M.lr1.y, M.lr1.z, M.nel, M.nel, M.time, M.istep, 0, 1,
      varsToVariables ⟨M.var.pos, M.var.vel, M.var.pres, M.var.temp, M.var.scal⟩, 2 + (if (M.lr1.z : Int) > 1 then 1 else 0),
      ⟨M.var.pos, M.var.vel, M.var.pres, M.var.temp, M.var.scal⟩⟩ := by
  refine ⟨_, ?_, rfl⟩
  unfold headerW Header.make
  rw [if_neg (by omega)]
  dsimp only
  rw [if_neg (by simp)]

/-- `writenek` accepts every consistent field (with at least one point per element in 3D). -/
theorem writenek_accepts (native : Endian) (M : HexaData F) (hM : FieldOK M)
    (hpts : M.ndim = 3 → 0 < M.lr1.x ∧ 0 < M.lr1.y ∧ 0 < M.lr1.z) : (writenek native M).2 = none := by
  obtain ⟨hd, h1, -⟩ := headerW_ok M hM.wdsz
  have hidx : ∀ n ∈ M.elmap, pyIndex M.elem.length (n - 1) = .ok (n - 1).toNat ∧ (n - 1).toNat < M.nel := by
    intro n hn
    have := hM.map n hn
    rw [hM.len]
    exact ⟨pyIndex_elmap this.1 this.2, by omega⟩
  have hb : ∀ t ∈ blocks M.elmap M.var, ∃ b, blockW native M t = .ok b := by
    rintro ⟨f, n, d⟩ ht
    rw [mem_blocks] at ht
    obtain ⟨hi, hlt⟩ := hidx n ht.1
    have := hM.shape _ hlt f (by omega)
    exact blockW_exists native M f n d _ hi (by omega)
  have hp : M.ndim = 3 → ∀ t ∈ pairs M.elmap M.var, ∃ b, pairW native M t = .ok b := by
    rintro h3 ⟨f, n, d⟩ ht
    rw [mem_pairs] at ht
    obtain ⟨hi, hlt⟩ := hidx n ht.1
    have hsh := hM.shape _ hlt f (by omega)
    have hpt := hpts h3
    unfold pairW HexaData.comp
    simp only [hi, bind, Except.bind]
    have hit : ∃ l, ((M.el (n - 1).toNat).arr f).items d = .ok l := by
      unfold Arr.items; rw [if_pos (by omega)]; exact ⟨_, rfl⟩
    obtain ⟨l, hl⟩ := hit
    rw [hl]
    dsimp only
    obtain ⟨-, hlen, -⟩ := items_spec _ d l hl
    rw [hsh.1.1, hsh.1.2.1, hsh.1.2.2] at hlen
    cases l with
    | nil =>
      exfalso
      have : 0 < M.lr1.z * M.lr1.y * M.lr1.x := Nat.mul_pos (Nat.mul_pos hpt.2.2 hpt.2.1) hpt.1
      simp at hlen; omega
    | cons x xs => exact ⟨_, rfl⟩
  obtain ⟨bs, hbs⟩ := map_ok_of_forall _ _ hb
  have hps : ∃ ps : List Bytes, (if M.ndim = 3 then (pairs M.elmap M.var).map (pairW native M) else []) = ps.map .ok := by
    split
    · next h3 => exact map_ok_of_forall _ _ (hp h3)
    · exact ⟨[], rfl⟩
  obtain ⟨ps, hps⟩ := hps
  rw [writenek_eq, h1]
  dsimp only
  rw [bodyW, hbs, hps]
  have : ∀ x y z : Bytes, (Except.ok x : Py Bytes) :: ([.ok y, .ok z] ++ bs.map .ok ++ ps.map .ok) = (x :: y :: z :: (bs ++ ps)).map .ok := by
    intro x y z; simp
  rw [this, runWrites_ok]

/-! ### Decoding one number -/

theorem bufVal_holds4 (e : Endian) (a : Arr F) (d : Nat) (b : Bytes) (h : Holds e 4 a d b) (z y x : Nat)
    (hz : z < a.lz) (hy : y < a.ly) (hx : x < a.lx) :
    (bufVal e 4 b ((z * a.ly + y) * a.lx + x) : G) = FloatTy.ofF32 (FloatTy.toF32 (a.dat d z y x)) := by
  have := h.2 z hz y hy x hx
  simp only [wordSize, wordBits, if_true] at this
  rw [bufVal, if_pos rfl, this, decW_encW, Nat.mod_eq_of_lt (F32.bits_lt _), Flt.ofBits_bits]

theorem bufVal_holds8 (e : Endian) (a : Arr F64) (d : Nat) (b : Bytes) (h : Holds e 8 a d b) (z y x : Nat)
    (hz : z < a.lz) (hy : y < a.ly) (hx : x < a.lx) :
    (bufVal e 8 b ((z * a.ly + y) * a.lx + x) : G) = FloatTy.ofF64 (a.dat d z y x) := by
  have := h.2 z hz y hy x hx
  simp only [wordSize, wordBits, show ¬ (8 = 4) by decide, if_false, show FloatTy.sz F64 = 8 from rfl,
    show ∀ x : F64, FloatTy.bits x = x.bits from fun _ => rfl] at this
  rw [bufVal, if_neg (by decide), this, decW_encW, Nat.mod_eq_of_lt (F64.bits_lt _), Flt.ofBits_bits]

/-! ### The whole file -/

theorem flatten_length_const (k : Nat) (bs : List Bytes) (h : ∀ b ∈ bs, b.length = k) : bs.flatten.length = bs.length * k := by
  have := flatMap_length_const k (fun b : Bytes => b) bs h
  rwa [List.flatMap_id'] at this

theorem block_flatten (k : Nat) (bs : List Bytes) (h : ∀ b ∈ bs, b.length = k) (i : Nat) (b : Bytes) (hb : bs[i]? = some b)
    (t : Bytes) : ((bs.flatten ++ t).drop (i * k)).take k = b := by
  have := block_flatMap k (fun b : Bytes => b) bs h i b hb t
  rwa [List.flatMap_id'] at this

theorem words_elmap (e : Endian) (l : List Int) (h : ∀ n ∈ l, -2 ^ 31 ≤ n ∧ n < 2 ^ 31) (t : Bytes) :
    (words 4 l.length ((l.flatMap fun i => encW e 4 (i32Bits i)) ++ t)).map (fun w => i32Val (decW e w)) = l := by
  rw [words_flatMap 4 (fun i => encW e 4 (i32Bits i)) l (fun i _ => encW_length _ _ _), List.map_map]
  conv_rhs => rw [← List.map_id l]
  apply List.map_congr_left
  intro n hn
  simp only [Function.comp, decW_encW, id]
  rw [Nat.mod_eq_of_lt (by have := i32Bits_lt n; norm_num at this ⊢; exact this), i32Val_i32Bits n (h n hn).1 (h n hn).2]

/-- Number of bytes up to the end of the data section of the file of `M`. -/
def dataEnd (M : HexaData F) : Nat :=
  136 + 4 * M.elmap.length + (blocks M.elmap M.var).length * (M.lr1.x * M.lr1.y * M.lr1.z * M.wdsz)

/-- The header as it is read back. -/
def headerR (M : HexaData F) : Header :=
  ⟨M.wdsz, M.lr1.x, M.lr1.y, M.lr1.z, M.nel, M.nel, printed 13 M.time, M.istep, 0, 1,
    varsToVariables ⟨M.var.pos, M.var.vel, M.var.pres, M.var.temp, M.var.scal⟩, M.ndim,
    ⟨M.var.pos, M.var.vel, M.var.pres, M.var.temp, M.var.scal⟩⟩

/-- A field that can be stored without loss of structure. -/
structure Spec.Storable (M : HexaData F) : Prop extends FieldOK M where
  dim : M.ndim = if 1 < M.lr1.z then 3 else 2
  pos : M.var.pos = 0 ∨ M.var.pos = M.ndim
  vel : M.var.vel = 0 ∨ M.var.vel = M.ndim
  pres : M.var.pres ≤ 1
  temp : M.var.temp ≤ 1
  something : 0 < M.var.pos ∨ 0 < M.var.vel ∨ 0 < M.var.pres ∨ 0 < M.var.temp ∨ 0 < M.var.scal
  mapLen : M.elmap.length = M.nel
  mapAll : ∀ i < M.nel, ((i : Int) + 1) ∈ M.elmap
  points : M.ndim = 3 → 0 < M.lr1.x ∧ 0 < M.lr1.y
  fits : ∀ hd, headerW M = .ok hd → hd.text.length ≤ 132

variable (M : HexaData F)

theorem Spec.Storable.header_read {M : HexaData F} (hM : Storable M) : ∃ hd, headerW M = .ok hd ∧ hd.asBytes.length = 132 ∧
    ∀ t, readHeader (hd.asBytes ++ t) = .ok (headerR M) := by
  obtain ⟨hd, h1, h2⟩ := headerW_ok M hM.wdsz
  have hfit := hM.fits hd h1
  have hsome : 0 < M.var.pos ∨ 0 < M.var.vel ∨ 0 < M.var.pres ∨ 0 < M.var.temp ∨ 0 < (M.var.scal : Int) := by
    have := hM.something; omega
  obtain ⟨hw, ha⟩ := variables_word ⟨M.var.pos, M.var.vel, M.var.pres, M.var.temp, M.var.scal⟩ hsome
  have hv : hd.vstr = varsToVariables ⟨M.var.pos, M.var.vel, M.var.pres, M.var.temp, M.var.scal⟩ := by rw [h2]
  have hdim : 2 + (if (M.lr1.z : Int) > 1 then 1 else 0) = M.ndim := by
    rw [hM.dim]; split <;> split <;> omega
  refine ⟨hd, h1, asBytes_length hd hfit, fun t => ?_⟩
  rw [readHeader_asBytes hd (by rw [hv]; exact hw) (by rw [hv]; exact ha) hfit, hv, h2]
  unfold Header.make headerR
  rw [if_neg (by dsimp only; have := hM.wdsz; omega)]
  dsimp only
  rw [hdim, if_pos hw.1, variables_inverse _ M.ndim (by rw [hM.dim]; split <;> omega)
    ⟨hM.pos, hM.vel, hM.pres, hM.temp, by dsimp only; omega⟩]
  rfl

omit [FloatTy F] in
theorem headerR_blk : (headerR M).blk = M.lr1.x * M.lr1.y * M.lr1.z * M.wdsz := by
  unfold Header.blk Header.nbPts headerR
  dsimp only
  norm_cast

omit [FloatTy F] in
theorem headerR_var : (headerR M).var = M.var := by
  unfold Header.var headerR
  simp

theorem Spec.Storable.no_zero {M : HexaData F} (hM : Storable M) : (0 : Int) ∉ M.elmap := fun h => by
  have := hM.map 0 h; omega

/-- The file of a storable field: its parts and their sizes. -/
theorem Spec.Storable.file {M : HexaData F} (native : Endian) (hM : Storable M) :
    ∃ (hb mb : Bytes) (bs ps : List Bytes),
      writenek native M = (hb ++ (encW (fileEndian native M.endian) 4 (Flt.ofRat (eb := 8) (mb := 23) false (654321 / 100000)).bits ++
        (mb ++ (bs.flatten ++ ps.flatten))), none) ∧
      hb.length = 132 ∧ (∀ t, readHeader (hb ++ t) = .ok (headerR M)) ∧
      mb = M.elmap.flatMap (fun i => encW (fileEndian native M.endian) 4 (i32Bits i)) ∧
      bs.length = (blocks M.elmap M.var).length ∧
      (∀ b ∈ bs, b.length = M.lr1.x * M.lr1.y * M.lr1.z * wordSize F M.wdsz) ∧
      (∀ (k : Nat) f i d, (blocks M.elmap M.var)[k]? = some (f, ((i : Nat) : Int) + 1, d) →
        ∃ b, bs[k]? = some b ∧ Holds (fileEndian native M.endian) M.wdsz ((M.el i).arr f) d b) ∧
      (ps.flatten.length = if M.ndim = 3 then 8 * (blocks M.elmap M.var).length else 0) := by
  have hacc := writenek_accepts native M hM.toFieldOK (fun h3 => by
    have h := hM.points h3
    have hd := hM.dim
    rw [h3] at hd
    refine ⟨h.1, h.2, ?_⟩
    split at hd <;> omega)
  obtain ⟨hd, bs, ps, h1, h2, h3, h4⟩ := writenek_none native M hacc
  obtain ⟨hd', h1', hlen, hread⟩ := hM.header_read
  rw [h1] at h1'
  cases h1'
  have hblock : ∀ (k : Nat) f n d, (blocks M.elmap M.var)[k]? = some (f, n, d) →
      ∃ b, bs[k]? = some b ∧ 1 ≤ n ∧ n ≤ M.nel ∧ Shape M.lr1 ((M.el (n - 1).toNat).arr f) ∧
        Holds (fileEndian native M.endian) M.wdsz ((M.el (n - 1).toNat).arr f) d b := by
    intro k f n d hk
    have hmem := (mem_blocks M.elmap M.var f n d).mp (List.mem_of_getElem? hk)
    have hrange := hM.map n hmem.1
    have h5 : (bs.map (Except.ok (ε := PyErr)))[k]? = some (blockW native M (f, n, d)) := by
      rw [← h2, List.getElem?_map, hk]; rfl
    rw [List.getElem?_map] at h5
    cases hb : bs[k]? with
    | none => rw [hb] at h5; cases h5
    | some b =>
      rw [hb] at h5
      have h6 : blockW native M (f, n, d) = .ok b := (Option.some.inj h5).symm
      obtain ⟨i, hi, -, hh⟩ := blockW_ok native M f n d b h6
      rw [hM.len, pyIndex_elmap hrange.1 hrange.2] at hi
      cases hi
      exact ⟨b, rfl, hrange.1, hrange.2, (hM.shape _ (by omega) f (by omega)).1, hh⟩
  have hbl : bs.length = (blocks M.elmap M.var).length := by
    have := congrArg List.length h2
    simpa using this.symm
  refine ⟨hd.asBytes, _, bs, ps, h4, hlen, hread, rfl, hbl, ?_, ?_, ?_⟩
  · intro b hb
    obtain ⟨k, hk, hkb⟩ := List.getElem_of_mem hb
    have hk' : k < (blocks M.elmap M.var).length := by omega
    obtain ⟨b', hb', -, -, hs, hh⟩ := hblock k _ _ _ (List.getElem?_eq_getElem hk')
    rw [List.getElem?_eq_getElem hk, hkb] at hb'
    cases hb'
    rw [hh.1, hs.1, hs.2.1, hs.2.2]
    ring
  · intro k f i d hk
    obtain ⟨b, hb, -, -, -, hh⟩ := hblock k f _ d hk
    refine ⟨b, hb, ?_⟩
    rwa [show ((i : Int) + 1 - 1).toNat = i by omega] at hh
  · split at h3
    · next h =>
      rw [if_pos h]
      have hl : ps.length = (blocks M.elmap M.var).length := by
        have := congrArg List.length h3
        rw [blocks_length, ← pairs_length]
        simpa using this.symm
      rw [flatten_length_const 8, hl, Nat.mul_comm]
      intro b hb
      have : (Except.ok b : Py Bytes) ∈ ps.map Except.ok := List.mem_map_of_mem hb
      rw [← h3] at this
      obtain ⟨t, -, ht⟩ := List.mem_map.mp this
      exact pairW_length native M t b ht
    · next h =>
      rw [if_neg h]
      have : ps = [] := by simpa using h3.symm
      rw [this]; rfl

/-- The metadata of a field that was read back. -/
structure Spec.SameMeta {F G : Type} (e : Endian) (M : HexaData F) (M' : HexaData G) : Prop where
  ndim : M'.ndim = M.ndim
  nel : M'.nel = M.nel
  lx : M'.lr1.x = M.lr1.x
  ly : M'.lr1.y = M.lr1.y
  lz : M'.lr1.z = M.lr1.z
  var : M'.var = M.var
  time : Printed 13 M.time M'.time
  istep : M'.istep = M.istep
  wdsz : M'.wdsz = M.wdsz
  endian : M'.endian = some e
  elmap : M'.elmap = M.elmap
  len : M'.elem.length = M.nel

/-- What is known before the data section. -/
theorem Spec.Storable.parsed {M : HexaData F} (native : Endian) (hM : Storable M) (hb tb : Bytes) (hlen : hb.length = 132)
    (hread : ∀ t, readHeader (hb ++ t) = .ok (headerR M)) (t : Bytes)
    (htb : tb = encW (fileEndian native M.endian) 4 (Flt.ofRat (eb := 8) (mb := 23) false (654321 / 100000)).bits) :
    Parsed (hb ++ (tb ++ ((M.elmap.flatMap fun i => encW (fileEndian native M.endian) 4 (i32Bits i)) ++ t)))
      (headerR M) (fileEndian native M.endian) M.elmap ∧
    dataSection (headerR M) (hb ++ (tb ++ ((M.elmap.flatMap fun i => encW (fileEndian native M.endian) 4 (i32Bits i)) ++ t))) = t := by
  have htl : tb.length = 4 := by rw [htb, encW_length]
  have d1 : ∀ u : Bytes, (hb ++ u).drop 132 = u := fun u => by rw [← hlen, List.drop_left']; rfl
  have d2 : ∀ u : Bytes, (hb ++ (tb ++ u)).drop 136 = u := fun u => by
    rw [show 136 = (hb ++ tb).length by rw [List.length_append]; omega, ← List.append_assoc, List.drop_left']; rfl
  have hml : (M.elmap.flatMap fun i => encW (fileEndian native M.endian) 4 (i32Bits i)).length = 4 * M.nel := by
    rw [flatMap_length_const 4 _ _ (fun i _ => encW_length _ _ _), hM.mapLen, Nat.mul_comm]
  have hnf : (headerR M).nbElemsFile.toNat = M.nel := by simp [headerR]
  have hel : ∀ u : Bytes, elmapBytes (headerR M) ((M.elmap.flatMap fun i => encW (fileEndian native M.endian) 4 (i32Bits i)) ++ u) =
      M.elmap.flatMap fun i => encW (fileEndian native M.endian) 4 (i32Bits i) := by
    intro u
    unfold elmapBytes
    rw [hnf, if_pos (by simp [headerR]), ← hml, List.take_left']
    rfl
  refine ⟨⟨hread _, ?_, ?_, ?_, ?_⟩, ?_⟩
  · rw [d1, show 4 = tb.length from htl.symm, List.take_left' rfl, htb, ← item_file, C13_written]
    cases ho : M.endian with
    | none => rfl
    | some e => rw [swapB, outEndian_swap]; rfl
  · rw [d2, hel, hml, hnf]
  · rw [d2, hel, hnf, ← hM.mapLen]
    have := words_elmap (fileEndian native M.endian) M.elmap (fun n hn => by
      have := hM.map n hn; have := hM.small; omega) []
    rw [List.append_nil] at this
    exact this.symm
  · simp [headerR]
  · unfold dataSection
    rw [d2, hnf, ← hml, List.drop_left']
    rfl

theorem getElem?_el (M : HexaData F) (i : Nat) (h : i < M.elem.length) : M.elem[i]? = some (M.el i) := by
  unfold HexaData.el
  rw [List.getD_eq_getElem?_getD, List.getElem?_eq_getElem h]; rfl

/-- **Round trip.** Reading the file of a storable field, also with bytes lost or added after the data section. -/
theorem Spec.Storable.read {M : HexaData F} (native native' : Endian) (hM : Storable M) (hw : wordSize F M.wdsz = M.wdsz) :
    ∃ head tail, writenek native M = (head ++ tail, none) ∧ head.length = dataEnd M ∧
      tail.length = (if M.ndim = 3 then 8 * (blocks M.elmap M.var).length else 0) ∧
      (∀ L < head.length, ∃ err, (readnek native' [] (head.take L) : Py (HexaData G)) = .error err) ∧
      ∃ M' : HexaData G, (∀ t, readnek native' [] (head ++ t) = .ok M') ∧ SameMeta (fileEndian native M.endian) M M' ∧
        M'.time = printed 13 M.time ∧
        ∀ i < M.nel, ∀ f, Shape M.lr1 ((M'.el i).arr f) ∧ count M.var f ≤ ((M'.el i).arr f).n ∧
          (∀ d, count M.var f ≤ d → ∀ z y x, ((M'.el i).arr f).dat d z y x = 0) ∧
          ∀ d < count M.var f, ∃ b, Holds (fileEndian native M.endian) M.wdsz ((M.el i).arr f) d b ∧
            ∀ z y x, ((M'.el i).arr f).dat d z y x =
              bufVal (fileEndian native M.endian) M.wdsz b ((z * M.lr1.y + y) * M.lr1.x + x) := by
  obtain ⟨hb, mb, bs, ps, hfile, hlen, hread, rfl, hbl, hbsz, hblk, hpl⟩ := hM.file native
  rw [hw, ← headerR_blk] at hbsz
  set tb := encW (fileEndian native M.endian) 4 (Flt.ofRat (eb := 8) (mb := 23) false (654321 / 100000)).bits with htb
  set mb := M.elmap.flatMap (fun i => encW (fileEndian native M.endian) 4 (i32Bits i)) with hmb
  have htl : tb.length = 4 := by rw [htb, encW_length]
  have hml : mb.length = 4 * M.elmap.length := by
    rw [hmb, flatMap_length_const 4 _ _ (fun i _ => encW_length _ _ _), Nat.mul_comm]
  have hfl : bs.flatten.length = (blocks M.elmap M.var).length * (headerR M).blk := by
    rw [flatten_length_const _ _ hbsz, hbl]
  have hacts : acts (headerR M) M.elmap [] = (blocks M.elmap M.var).map rdAct := by
    rw [acts_noskip, headerR_var, fileOrder, if_neg hM.no_zero]
  set init := initData G native' (headerR M) (fileEndian native M.endian) M.elmap with hinit
  have hil : init.elem.length = M.nel := by
    simp [hinit, initData, HexaData.new, headerR]
  have hvalid : ∀ a ∈ acts (headerR M) M.elmap [], a.Valid init.elem.length := by
    intro a ha
    rw [hacts] at ha
    obtain ⟨⟨f, n, d⟩, ht, rfl⟩ := List.mem_map.mp ha
    have := hM.map n ((mem_blocks _ _ _ _ _).mp ht).1
    rw [hil]
    exact ⟨_, pyIndex_elmap this.1 this.2⟩
  have hrun : ∀ t, runActs (fileEndian native M.endian) (headerR M) (acts (headerR M) M.elmap []) ⟨bs.flatten ++ t, init⟩ =
      .ok (after (fileEndian native M.endian) (headerR M) (acts (headerR M) M.elmap []) ⟨bs.flatten ++ t, init⟩) := by
    intro t
    apply runActs_ok
    · exact hvalid
    · apply enough_of_length
      rw [hacts, List.length_map, List.length_append, hfl]
      omega
  -- which block a component comes from
  have hsrc : ∀ t, ∀ i < M.nel, ∀ f, ∀ d < count M.var f, ∃ b, Holds (fileEndian native M.endian) M.wdsz ((M.el i).arr f) d b ∧
      srcs (F := G) (fileEndian native M.endian) (headerR M) M.nel i (bs.flatten ++ t) (acts (headerR M) M.elmap []) f d =
        some (bufVal (fileEndian native M.endian) M.wdsz b) ∧
      ∃ k : Nat, bs[k]? = some b ∧ (blocks M.elmap M.var)[k]? = some (f, (i : Int) + 1, d) ∧
        ∀ k' : Nat, k < k' → (blocks M.elmap M.var)[k']? ≠ some (f, (i : Int) + 1, d) := by
    intro t i hi f d hd
    obtain ⟨k, hk, hlast⟩ := exists_last (blocks M.elmap M.var) (f, (i : Int) + 1, d)
      ((mem_blocks _ _ _ _ _).mpr ⟨hM.mapAll i hi, hd⟩)
    obtain ⟨b, hb, hh⟩ := hblk k f i d hk
    refine ⟨b, hh, ?_, k, hb, hk, hlast⟩
    have hj : pyIndex M.nel ((i : Int) + 1 - 1) = .ok i := by
      rw [pyIndex_elmap (by omega) (by omega)]; congr 1; omega
    rw [srcs_last _ _ _ _ _ _ f d k ((i : Int) + 1 - 1) (by rw [hacts, List.getElem?_map, hk]; rfl) hj]
    · rw [block_flatten _ _ hbsz k b hb]
      rfl
    · intro k' j' hkk' hk' hc
      rw [hacts, List.getElem?_map] at hk'
      cases hbk : (blocks M.elmap M.var)[k']? with
      | none => rw [hbk] at hk'; cases hk'
      | some t' =>
        rw [hbk] at hk'
        obtain ⟨f', n', d'⟩ := t'
        have h1 := Option.some.inj hk'
        simp only [rdAct, Act.rd.injEq] at h1
        obtain ⟨rfl, rfl, rfl⟩ := h1
        have hr := hM.map n' ((mem_blocks _ _ _ _ _).mp (List.mem_of_getElem? hbk)).1
        rw [pyIndex_elmap hr.1 hr.2] at hc
        have hni : (n' - 1).toNat = i := Except.ok.inj hc
        apply hlast k' hkk'
        rw [hbk, show n' = (i : Int) + 1 by omega]
  have hsrc0 : ∀ t i f d, count M.var f ≤ d →
      srcs (F := G) (fileEndian native M.endian) (headerR M) M.nel i (bs.flatten ++ t) (acts (headerR M) M.elmap []) f d = none := by
    intro t i f d hd
    apply srcs_none
    intro j hj
    rw [hacts] at hj
    obtain ⟨⟨f', n', d'⟩, ht, h1⟩ := List.mem_map.mp hj
    simp only [rdAct, Act.rd.injEq] at h1
    obtain ⟨rfl, rfl, rfl⟩ := h1
    have := ((mem_blocks _ _ _ _ _).mp ht).2
    omega
  have hsame : ∀ t i, i < M.nel → srcs (F := G) (fileEndian native M.endian) (headerR M) M.nel i (bs.flatten ++ t) (acts (headerR M) M.elmap []) =
      srcs (F := G) (fileEndian native M.endian) (headerR M) M.nel i (bs.flatten ++ []) (acts (headerR M) M.elmap []) := by
    intro t i hi
    funext f d
    by_cases hd : d < count M.var f
    · obtain ⟨b, -, h1, k, hk, hbk, hlast⟩ := hsrc t i hi f d hd
      obtain ⟨b', -, h1', k', hk', hbk', hlast'⟩ := hsrc [] i hi f d hd
      have : k = k' := by
        rcases Nat.lt_trichotomy k k' with h | h | h
        · exact absurd hbk' (hlast k' h)
        · exact h
        · exact absurd hbk (hlast' k h)
      subst this
      rw [hk] at hk'
      cases hk'
      rw [h1, h1']
    · rw [hsrc0 t i f d (by omega), hsrc0 [] i f d (by omega)]
  have hassoc : ∀ t, hb ++ (tb ++ (mb ++ bs.flatten)) ++ t = hb ++ (tb ++ (mb ++ (bs.flatten ++ t))) := by
    intro t; simp only [List.append_assoc]
  have hhead : (hb ++ (tb ++ (mb ++ bs.flatten))).length = dataEnd M := by
    simp only [List.length_append, hlen, htl, hml, hfl, dataEnd, headerR_blk]; omega
  let g (i : Nat) (el : Elem G) : Elem G :=
    el.upd (srcs (fileEndian native M.endian) (headerR M) M.nel i (bs.flatten ++ []) (acts (headerR M) M.elmap []))
  obtain ⟨M', hM'⟩ : ∃ M' : HexaData G, M' = { init with elem := init.elem.mapIdx g } := ⟨_, rfl⟩
  refine ⟨hb ++ (tb ++ (mb ++ bs.flatten)), ps.flatten, ?_, hhead, hpl, ?_, M', ?_, ?_, by rw [hM']; rfl, ?_⟩
  · rw [hfile, hassoc]
  · -- truncated
    intro L hL
    cases hr : (readnek native' [] ((hb ++ (tb ++ (mb ++ bs.flatten))).take L) : Py (HexaData G)) with
    | error err => exact ⟨err, rfl⟩
    | ok M1 =>
      exfalso
      obtain ⟨h, e, elmap, hp⟩ := readnek_inv native' [] _ M1 hr
      rw [hhead] at hL
      -- the tag is complete
      have hL1 : 136 ≤ L := by
        by_contra hc
        have htag := hp.tag
        rw [tagEndian, if_pos] at htag
        · cases htag
        · rw [List.length_take, List.length_drop, List.length_take, hhead]; omega
      have hcut : (hb ++ (tb ++ (mb ++ bs.flatten))).take L = hb ++ (tb ++ (mb ++ bs.flatten).take (L - 136)) := by
        rw [List.take_append, List.take_of_length_le (by omega), List.take_append, List.take_of_length_le (by omega),
          show L - hb.length - tb.length = L - 136 by omega]
      rw [hcut] at hp hr
      -- the element map is complete
      have hh : h = headerR M := by
        have := hp.header
        rw [hread] at this
        exact (Except.ok.inj this).symm
      have hnf : (headerR M).nbElemsFile.toNat = M.nel := by simp [headerR]
      have hL2 : 136 + 4 * M.nel ≤ L := by
        have h1 := hp.mapLen
        rw [hh, hnf] at h1
        unfold elmapBytes at h1
        rw [hnf, if_pos (by simp [headerR])] at h1
        rw [List.length_take, List.length_drop, List.length_append, List.length_append, List.length_take] at h1
        omega
      have hcut2 : (mb ++ bs.flatten).take (L - 136) = mb ++ bs.flatten.take (L - 136 - mb.length) := by
        rw [List.take_append, List.take_of_length_le (by rw [hml, hM.mapLen]; omega)]
      rw [hcut2] at hr
      obtain ⟨hp', hds⟩ := hM.parsed native hb tb hlen hread (bs.flatten.take (L - 136 - mb.length)) htb
      rw [readnek_parsed native' [] _ _ _ _ hp', hds] at hr
      cases hrun' : runActs (fileEndian native M.endian) (headerR M) (acts (headerR M) M.elmap [])
          ⟨bs.flatten.take (L - 136 - mb.length), init⟩ with
      | error err => rw [hrun'] at hr; cases hr
      | ok s' =>
        obtain ⟨-, hen⟩ := runActs_conv _ _ _ _ _ hrun'
        dsimp only at hen
        have hdE : dataEnd M = 136 + 4 * M.elmap.length + bs.flatten.length := by
          rw [hfl, headerR_blk]; rfl
        have hpos : 0 < bs.flatten.length := by rw [hM.mapLen] at hdE; omega
        have hK : 0 < (blocks M.elmap M.var).length := by
          rcases Nat.eq_zero_or_pos (blocks M.elmap M.var).length with h0 | h0
          · rw [hfl, h0] at hpos; simp at hpos
          · exact h0
        have hlast : (acts (headerR M) M.elmap [])[(blocks M.elmap M.var).length - 1]? =
            some (rdAct ((blocks M.elmap M.var)[(blocks M.elmap M.var).length - 1]'(by omega))) := by
          rw [hacts, List.getElem?_map, List.getElem?_eq_getElem (by omega)]; rfl
        rcases enough_get _ _ _ hen _ _ _ _ hlast with h2 | h2
        · rw [Nat.sub_add_cancel hK, ← hfl, List.length_take] at h2
          rw [hM.mapLen] at hml hdE
          omega
        · rw [hfl, h2] at hpos; simp at hpos
  · intro t
    obtain ⟨hp, hds⟩ := hM.parsed native hb tb hlen hread (bs.flatten ++ t) htb
    rw [hassoc, readnek_parsed native' [] _ _ _ _ hp, hds, hrun]
    simp only [Except.map]
    congr 1
    rw [hM', after]
    dsimp only
    rw [hil]
    congr 1
    apply List.ext_getElem?
    intro i
    rw [List.getElem?_mapIdx, List.getElem?_mapIdx]
    by_cases hi : i < M.nel
    · rw [hsame t i hi]
    · rw [List.getElem?_eq_none (by omega)]; rfl
  · subst hM'
    exact ⟨rfl, by simp [hinit, initData, HexaData.new, headerR], by simp [hinit, initData, HexaData.new, headerR],
      by simp [hinit, initData, HexaData.new, headerR], by simp [hinit, initData, HexaData.new, headerR],
      by simpa [hinit, initData, HexaData.new] using headerR_var M, printed_spec 13 M.time, rfl,
      by simp [hinit, initData, HexaData.new, headerR], rfl, rfl, by rw [← hil]; simp⟩
  · intro i hi f
    have hel : M'.el i = (Elem.new M.var.pres M.var.temp M.var.scal M.lr1.x M.lr1.y M.lr1.z 0 : Elem G).upd
        (srcs (fileEndian native M.endian) (headerR M) M.nel i (bs.flatten ++ []) (acts (headerR M) M.elmap [])) := by
      have h1 : M'.elem[i]? = some ((Elem.new M.var.pres M.var.temp M.var.scal M.lr1.x M.lr1.y M.lr1.z 0 : Elem G).upd
          (srcs (fileEndian native M.endian) (headerR M) M.nel i (bs.flatten ++ []) (acts (headerR M) M.elmap []))) := by
        rw [hM']
        dsimp only
        rw [List.getElem?_mapIdx]
        have : init.elem[i]? = some (Elem.new M.var.pres M.var.temp M.var.scal M.lr1.x M.lr1.y M.lr1.z 0) := by
          simp [hinit, initData, HexaData.new, headerR, Header.var, hi]
        rw [this]; rfl
      unfold HexaData.el
      rw [List.getD_eq_getElem?_getD, h1]; rfl
    have harr : ∀ (el : Elem G) P, (el.upd P).arr f = (el.arr f).upd (P f) := by
      intro el P; cases f <;> rfl
    rw [hel, harr]
    refine ⟨?_, ?_, ?_, ?_⟩
    · cases f <;> exact ⟨rfl, rfl, rfl⟩
    · have h1 := hM.pos
      have h2 := hM.vel
      have h3 : M.ndim ≤ 3 := by rw [hM.dim]; split <;> omega
      cases f
      · show M.var.pos ≤ 3; omega
      · show M.var.vel ≤ 3; omega
      · exact le_rfl
      · exact le_rfl
      · exact le_rfl
    · intro d hd z y x
      simp only [Arr.upd, hsrc0 [] i f d hd]
      cases f <;> rfl
    · intro d hd
      obtain ⟨b, hh, h1, -⟩ := hsrc [] i hi f d hd
      refine ⟨b, hh, fun z y x => ?_⟩
      simp only [Arr.upd, h1]
      cases f <;> rfl

end Pymech
