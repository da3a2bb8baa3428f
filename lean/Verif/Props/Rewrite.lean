import Verif.Props.FieldRead
import Verif.Props.Field
import Verif.Props.Header
import Verif.Spec.Mesh

/-!
# C111: a field file that is read and written again

`readnek` and `writenek` of `/repo/src/pymech/neksuite/field.py`. The file need not come from pymech: nothing is
assumed but that `readnek` accepts it and that its element map names every element once.
-/

set_option autoImplicit false

namespace Pymech

open Spec

/-! ### Words -/

theorem Flt.bits_ofBits {eb mb : Nat} (n : Nat) (h : n < 2 ^ (eb + mb + 1)) : (Flt.ofBits n : Flt eb mb).bits = n := by
  have key : ∀ p : Nat, 0 < p → n < 2 * p → (if decide (n / p % 2 = 1) = true then p else 0) + n % p = n := by
    intro p hp0 h2
    have hdm := Nat.div_add_mod n p
    have hlt : n / p < 2 := (Nat.div_lt_iff_lt_mul hp0).mpr h2
    by_cases h1 : n / p = 1
    · rw [h1] at hdm ⊢
      rw [if_pos (by decide)]
      omega
    · have h0 : n / p = 0 := Nat.lt_one_iff.mp (lt_of_le_of_ne (Nat.lt_succ_iff.mp hlt) h1)
      rw [h0] at hdm ⊢
      rw [if_neg (by decide)]
      omega
  exact key _ (Nat.two_pow_pos _) (by rw [Nat.mul_comm, ← pow_succ]; exact h)

theorem i32Bits_i32Val (n : Nat) (h : n < 2 ^ 32) : i32Bits (i32Val n) = n := by
  unfold i32Bits i32Val
  split <;> omega

/-- Two byte strings made of the same words. -/
theorem words_ext (k n : Nat) (l l' : Bytes) (h1 : l.length = n * k) (h2 : l'.length = n * k)
    (h : ∀ i < n, (l.drop (i * k)).take k = (l'.drop (i * k)).take k) : l = l' := by
  induction n generalizing l l' with
  | zero =>
    rw [Nat.zero_mul] at h1 h2
    rw [List.length_eq_zero_iff.mp h1, List.length_eq_zero_iff.mp h2]
  | succ n ih =>
    have h0 := h 0 (by omega)
    rw [Nat.zero_mul, List.drop_zero, List.drop_zero] at h0
    rw [Nat.succ_mul] at h1 h2
    have hr := ih (l.drop k) (l'.drop k) (by rw [List.length_drop]; omega) (by rw [List.length_drop]; omega) (by
      intro i hi
      have := h (i + 1) (by omega)
      rw [List.drop_drop, List.drop_drop, show k + i * k = (i + 1) * k by ring]
      exact this)
    rw [← List.take_append_drop k l, ← List.take_append_drop k l', h0, hr]

/-- The four bytes of every entry of the element map are kept. -/
theorem map_kept (e : Endian) (n : Nat) (l : Bytes) (hl : l.length = 4 * n) :
    ((words 4 n l).map fun w => i32Val (decW e w)).flatMap (fun i => encW e 4 (i32Bits i)) = l := by
  have hw : ∀ w ∈ words 4 n l, encW e 4 (i32Bits (i32Val (decW e w))) = w := by
    intro w hw
    obtain ⟨i, hi, rfl⟩ := List.getElem_of_mem hw
    rw [words_length] at hi
    have h1 := words_getElem? 4 n l i hi
    rw [List.getElem?_eq_getElem (by rw [words_length]; exact hi)] at h1
    have h2 := Option.some.inj h1
    have hlen : ((words 4 n l)[i]'(by rw [words_length]; exact hi)).length = 4 := by
      rw [h2, List.length_take, List.length_drop]; omega
    have h3 := decW_lt e ((words 4 n l)[i]'(by rw [words_length]; exact hi))
    rw [hlen] at h3
    rw [i32Bits_i32Val _ (by norm_num at h3 ⊢; exact h3)]
    have h4 := encW_decW e ((words 4 n l)[i]'(by rw [words_length]; exact hi))
    rw [hlen] at h4
    exact h4
  rw [List.flatMap_map]
  have hlen : ∀ x ∈ words 4 n l, (encW e 4 (i32Bits (i32Val (decW e x)))).length = 4 := fun x _ => encW_length _ _ _
  refine words_ext 4 n _ _ ?_ (by omega) fun i hi => ?_
  · rw [flatMap_length_const 4 _ _ hlen, words_length]
  · have h1 := words_getElem? 4 n l i hi
    have h2 := block_flatMap 4 (fun w => encW e 4 (i32Bits (i32Val (decW e w)))) (words 4 n l) hlen i _ h1 []
    rw [List.append_nil] at h2
    rw [h2]
    exact hw _ (List.mem_of_getElem? h1)

/-! ### The header -/

/-- What `read_header` derives from the orders and from the text naming the variables. -/
theorem C08_derived (b : Bytes) (h : Header) (hr : readHeader b = .ok h) :
    h.nbDims = (if 1 < h.oz then 3 else 2) ∧ h.vstr ≠ [] ∧ variablesToVars h.vstr h.nbDims = .ok h.nbVars := by
  unfold readHeader at hr
  split at hr
  · next w0 w1 w2 w3 w4 w5 w6 w7 w8 w9 w10 vars more heq =>
    simp only [bind, Except.bind] at hr
    rcases h1 : orValueError (pyInt w1) with _ | _
    · rw [h1] at hr; cases hr
    rw [h1] at hr
    rcases h2 : orValueError (pyInt w2) with _ | _
    · rw [h2] at hr; cases hr
    rw [h2] at hr
    rcases h3 : orValueError (pyInt w3) with _ | _
    · rw [h3] at hr; cases hr
    rw [h3] at hr
    rcases h4 : orValueError (pyInt w4) with _ | _
    · rw [h4] at hr; cases hr
    rw [h4] at hr
    rcases h5 : orValueError (pyInt w5) with _ | _
    · rw [h5] at hr; cases hr
    rw [h5] at hr
    rcases h6 : orValueError (pyInt w6) with _ | _
    · rw [h6] at hr; cases hr
    rw [h6] at hr
    rcases h7 : orValueError (pyFloat w7) with _ | _
    · rw [h7] at hr; cases hr
    rw [h7] at hr
    rcases h8 : orValueError (pyInt w8) with _ | _
    · rw [h8] at hr; cases hr
    rw [h8] at hr
    rcases h9 : orValueError (pyInt w9) with _ | _
    · rw [h9] at hr; cases hr
    rw [h9] at hr
    rcases h10 : orValueError (pyInt w10) with _ | _
    · rw [h10] at hr; cases hr
    rw [h10] at hr
    dsimp only at hr
    split at hr
    · cases hr
    · unfold Header.make at hr
      split at hr
      · cases hr
      · dsimp only at hr
        split at hr
        · next hne =>
          generalize hvv : variablesToVars vars _ = r at hr
          cases r with
          | error e => cases hr
          | ok v =>
            have := (Except.ok.inj hr).symm
            subst this
            refine ⟨?_, hne, hvv⟩
            dsimp only
            split <;> rfl
        · cases hr
  · cases hr

/-- The numbers of components named by a text. -/
theorem variablesToVars_le (vs : Text) (k : Nat) (v : HVars) (h : variablesToVars vs k = .ok v) :
    v.pos ≤ k ∧ v.vel ≤ k ∧ v.pres ≤ 1 ∧ v.temp ≤ 1 := by
  unfold variablesToVars at h
  dsimp only at h
  have hn : ∀ (c : Char) (m : Nat), (if c ∈ vs then m else 0) ≤ m := by
    intro c m; split <;> omega
  split at h
  · rw [← Except.ok.inj h]
    exact ⟨hn _ _, hn _ _, hn _ _, hn _ _⟩
  · split at h
    · rw [← Except.ok.inj h]
      exact ⟨hn _ _, hn _ _, hn _ _, hn _ _⟩
    · cases h

/-! ### The fields read from a file -/

variable {F : Type} [FloatTy F]

/-- A field read from a file whose element map names existing elements is consistent. -/
theorem readnek_fieldOK (native : Endian) (b : Bytes) (M : HexaData F) (hr : readnek native [] b = .ok M)
    (hp : PermMap M.nel M.elmap) : FieldOK M := by
  obtain ⟨h, e, elmap, hP, hv, hen, hM⟩ := readnek_ok native [] b M hr
  obtain ⟨hd, -, hvar⟩ := C08_derived b h hP.header
  have hle := variablesToVars_le _ _ _ hvar
  have hd3 : h.nbDims ≤ 3 := by rw [hd]; split <;> omega
  have hmap : ∀ n ∈ M.elmap, 1 ≤ n ∧ n ≤ M.nel := by
    intro n hn
    obtain ⟨i, hi, rfl⟩ := List.mem_map.mp (hp.mem_iff.mp hn)
    have := List.mem_range.mp hi
    omega
  refine ⟨?_, ?_, ?_, hmap, ?_⟩
  · have hw : h.wdsz = 4 ∨ h.wdsz = 8 := by
      obtain ⟨_, _, _, _, _, _, _, _, _, _, _, _, _, _, _, _, _, _, _, _, _, _, _, h1, _⟩ := C08_sound b h hP.header
      exact h1
    have : M.wdsz = h.wdsz.toNat := by rw [hM]; rfl
    omega
  · rw [hM]
    simp [HexaData.upd, initData, HexaData.new]
  · intro i hi f hf
    have hn : M.nel = h.nbElems.toNat := by rw [hM]; rfl
    have hlr : M.lr1 = ⟨h.ox.toNat, h.oy.toNat, h.oz.toNat, false⟩ := by rw [hM]; rfl
    have hvar' : M.var = h.var := by rw [hM]; rfl
    rw [hlr, hvar', hM, initData_el _ _ _ _ _ _ (by omega), upd_arr]
    have h1 : h.var.pos = h.nbVars.pos := rfl
    have h2 : h.var.vel = h.nbVars.vel := rfl
    cases f
    · exact ⟨⟨rfl, rfl, rfl⟩, show h.var.pos ≤ 3 by omega⟩
    · exact ⟨⟨rfl, rfl, rfl⟩, show h.var.vel ≤ 3 by omega⟩
    · exact ⟨⟨rfl, rfl, rfl⟩, le_refl h.var.pres⟩
    · exact ⟨⟨rfl, rfl, rfl⟩, le_refl h.var.temp⟩
    · exact ⟨⟨rfl, rfl, rfl⟩, le_refl h.var.scal⟩
  · rcases Nat.eq_zero_or_pos M.nel with h0 | h0
    · rw [h0]; norm_num
    · have hm : (M.nel : Int) ∈ M.elmap :=
        hp.mem_iff.mpr (List.mem_map.mpr ⟨M.nel - 1, List.mem_range.mpr (by omega), by omega⟩)
      have he : M.elmap = elmap := by rw [hM]; rfl
      rw [he, hP.map] at hm
      obtain ⟨w, hw, hwv⟩ := List.mem_map.mp hm
      obtain ⟨i, hi, rfl⟩ := List.getElem_of_mem hw
      have hi' := hi
      rw [words_length] at hi'
      have h1 := words_getElem? 4 h.nbElemsFile.toNat (elmapBytes h (b.drop 136)) i hi'
      rw [List.getElem?_eq_getElem hi] at h1
      have h2 := Option.some.inj h1
      have h3 := decW_lt e (words 4 h.nbElemsFile.toNat (elmapBytes h (b.drop 136)))[i]
      have hlen : (words 4 h.nbElemsFile.toNat (elmapBytes h (b.drop 136)))[i].length = 4 := by
        rw [h2, List.length_take, List.length_drop, hP.mapLen]; omega
      rw [hlen] at h3
      unfold i32Val at hwv
      split at hwv <;> omega

/-- A field is only read from a file that contains all its blocks. -/
theorem readnek_length (native : Endian) (b : Bytes) (M : HexaData F) (hr : readnek native [] b = .ok M)
    (hp : PermMap M.nel M.elmap) :
    136 + 4 * M.elmap.length + (blocks M.elmap M.var).length * blockSize M ≤ b.length := by
  obtain ⟨h, e, elmap, hP, hv, hen, hM⟩ := readnek_ok native [] b M hr
  have hme : M.elmap = elmap := by rw [hM]; rfl
  have hlen : elmap.length = h.nbElemsFile.toNat := by rw [hP.map, List.length_map, words_length]
  have hvar : M.var = h.var := by rw [hM]; rfl
  have hx : M.lr1.x = h.ox.toNat := by rw [hM]; rfl
  have hy : M.lr1.y = h.oy.toNat := by rw [hM]; rfl
  have hz : M.lr1.z = h.oz.toNat := by rw [hM]; rfl
  have hwd : M.wdsz = h.wdsz.toNat := by rw [hM]; rfl
  have hw48 : h.wdsz = 4 ∨ h.wdsz = 8 := by
    obtain ⟨_, _, _, _, _, _, _, _, _, _, _, _, _, _, _, _, _, _, _, _, _, _, _, h1, _⟩ := C08_sound b h hP.header
    exact h1
  have hblk : blockSize M = h.blk := by
    have hs := hP.size
    rw [not_or, not_or, not_or, not_or] at hs
    unfold blockSize Header.blk Header.nbPts
    rw [hx, hy, hz, hwd]
    have a1 : (h.ox.toNat : Int) = h.ox := Int.toNat_of_nonneg (by omega)
    have a2 : (h.oy.toNat : Int) = h.oy := Int.toNat_of_nonneg (by omega)
    have a3 : (h.oz.toNat : Int) = h.oz := Int.toNat_of_nonneg (by omega)
    have a4 : (h.wdsz.toNat : Int) = h.wdsz := Int.toNat_of_nonneg (by omega)
    have : (h.ox * h.oy * h.oz * h.wdsz) = ((h.ox.toNat * h.oy.toNat * h.oz.toNat * h.wdsz.toNat : Nat) : Int) := by
      push_cast; rw [a1, a2, a3, a4]
    rw [this, Int.toNat_natCast]
  have htag : 136 ≤ b.length := by
    have := hP.tag
    unfold tagEndian at this
    split at this
    · cases this
    · next h4 =>
      rw [List.length_take, List.length_drop] at h4
      omega
  have hmapl : 136 + 4 * elmap.length ≤ b.length := by
    have := hP.mapLen
    rw [← hlen] at this
    unfold elmapBytes at this
    split at this
    · rw [List.length_take, List.length_drop] at this
      omega
    · rw [List.length_drop] at this
      omega
  have h0 : (0 : Int) ∉ elmap := by
    rw [← hme]
    intro hc
    obtain ⟨i, -, hi⟩ := List.mem_map.mp (hp.mem_iff.mp hc)
    omega
  rw [acts_noskip, fileOrder, if_neg h0] at hen
  rw [hme, hvar, hblk]
  rcases Nat.eq_zero_or_pos (blocks elmap h.var).length with hb0 | hb0
  · rw [hb0]; omega
  · have hk : (blocks elmap h.var)[(blocks elmap h.var).length - 1]? = some ((blocks elmap h.var)[(blocks elmap h.var).length - 1]'(by omega)) :=
      List.getElem?_eq_getElem _
    have := enough_get h _ _ hen ((blocks elmap h.var).length - 1) _ _ _ (by rw [List.getElem?_map, hk]; rfl)
    rcases this with h1 | h1
    · rw [show (blocks elmap h.var).length - 1 + 1 = (blocks elmap h.var).length by omega, dataSection, List.length_drop,
        List.length_drop, ← hlen] at h1
      rcases Nat.eq_zero_or_pos h.blk with hb | hb
      · rw [hb]; omega
      · have : 0 < (blocks elmap h.var).length * h.blk := Nat.mul_pos hb0 hb
        omega
    · rw [h1]; omega

/-- The bytes of a number are the same after reading it into an array of type `F` and writing it again. -/
def Spec.Kept (F : Type) [FloatTy F] (e : Endian) (wdsz : Nat) (w : Bytes) : Prop :=
  encW e (wordSize F wdsz) (wordBits wdsz (bufVal e wdsz w 0 : F)) = w

/-- Number of bytes of the element map and of all blocks of a field. -/
def Spec.bodySize (M : HexaData F) : Nat := 4 * M.elmap.length + (blocks M.elmap M.var).length * blockSize M

/-- `c` is a file for the field `M` read from the file `b`: a header saying the same, a tag, the element map and all
numbers of `b` byte for byte, and in three dimensions a pair of extreme values for every block. -/
def Spec.Rewritten (b : Bytes) (M : HexaData F) (c : Bytes) : Prop :=
  ∃ (hd : Header) (tag tail : Bytes),
    (hd.wdsz = M.wdsz ∧ hd.ox = M.lr1.x ∧ hd.oy = M.lr1.y ∧ hd.oz = M.lr1.z ∧ hd.nbElems = M.nel ∧ hd.nbElemsFile = M.nel ∧
      hd.time = M.time ∧ hd.istep = M.istep ∧ hd.fid = 0 ∧ hd.nbFiles = 1 ∧
      hd.nbVars = ⟨M.var.pos, M.var.vel, M.var.pres, M.var.temp, M.var.scal⟩) ∧
    tag.length = 4 ∧ tail.length = (if M.ndim = 3 then 8 * (blocks M.elmap M.var).length else 0) ∧
    136 + bodySize M ≤ b.length ∧ c = hd.asBytes ++ (tag ++ ((b.drop 136).take (bodySize M) ++ tail))

/-- The general form of C111. -/
theorem rewrite_spec (native native' : Endian) (b : Bytes) (M : HexaData F) (hr : readnek native [] b = .ok M)
    (hp : PermMap M.nel M.elmap) (hw : WordOK F M.wdsz) (hpts : M.ndim = 3 → 0 < M.lr1.x ∧ 0 < M.lr1.y ∧ 0 < M.lr1.z)
    (hkeep : ∀ e, M.endian = some e → ∀ i : Nat, (i + 1) * M.wdsz ≤ (blocks M.elmap M.var).length * blockSize M →
      Kept F e M.wdsz ((b.drop (136 + 4 * M.elmap.length + i * M.wdsz)).take M.wdsz)) :
    (writenek native' M).2 = none ∧ Rewritten b M (writenek native' M).1 := by
  have hok := readnek_fieldOK native b M hr hp
  have hblen := readnek_length native b M hr hp
  obtain ⟨h, e, hh, he, hmap, hml, -, hblk⟩ := C11_blocks native b M hr
  have h0 : (0 : Int) ∉ M.elmap := fun hc => by have := hok.map 0 hc; omega
  have hnd : M.elmap.Nodup := by
    refine hp.nodup_iff.mpr (List.nodup_range.map fun a b h => ?_)
    simpa using h
  rw [fileOrder, if_neg h0] at hblk
  have hblk := hblk (fun n hn => (hok.map n hn).1) hnd
  have hacc := writenek_accepts native' M hok hpts
  obtain ⟨hd, bs, ps, h1, h2, h3, h4⟩ := writenek_none native' M hacc
  have hfe : fileEndian native' M.endian = e := by rw [he]; rfl
  rw [hfe] at h4
  have hlb : bs.length = (blocks M.elmap M.var).length := by
    have := congrArg List.length h2
    rw [List.length_map, List.length_map] at this
    exact this.symm
  -- the element map
  have hem : (M.elmap.flatMap fun i => encW e 4 (i32Bits i)) = (b.drop 136).take (4 * M.elmap.length) := by
    have hl : (elmapBytes h (b.drop 136)).length = 4 * h.nbElemsFile.toNat := by
      obtain ⟨h', e', elmap', hP, -, -, -⟩ := readnek_ok native [] b M hr
      have : h' = h := Except.ok.inj (hP.header.symm.trans hh)
      rw [← this]
      exact hP.mapLen
    have h5 := map_kept e h.nbElemsFile.toNat (elmapBytes h (b.drop 136)) hl
    rw [← hmap] at h5
    rw [h5, hml]
    unfold elmapBytes at hl ⊢
    split
    · rfl
    · next hneg =>
      rw [if_neg hneg] at hl
      rw [List.take_of_length_le (by omega)]
  -- one block
  have hone : ∀ (k : Nat) (c : Bytes), bs[k]? = some c →
      c = (b.drop (136 + 4 * M.elmap.length + k * blockSize M)).take (blockSize M) := by
    intro k c hc
    have hk : k < (blocks M.elmap M.var).length := by
      rw [← hlb]; exact (List.getElem?_eq_some_iff.mp hc).1
    obtain ⟨⟨f, n, d⟩, ht⟩ : ∃ t, (blocks M.elmap M.var)[k]? = some t := ⟨_, List.getElem?_eq_getElem hk⟩
    have h5 : blockW native' M (f, n, d) = .ok c := by
      have := congrArg (fun l : List (Py Bytes) => l[k]?) h2
      simp only [List.getElem?_map, ht, hc, Option.map_some] at this
      exact Option.some.inj this
    have hmem := (mem_blocks _ _ _ _ _).mp (List.mem_of_getElem? ht)
    have hn := hok.map n hmem.1
    obtain ⟨i, hi, hdn, hH⟩ := blockW_ok native' M f n d c h5
    rw [hok.len, pyIndex_elmap hn.1 hn.2] at hi
    have hi := (Except.ok.inj hi).symm
    subst hi
    rw [hfe] at hH
    obtain ⟨⟨hx, hy, hz⟩, -⟩ := hok.shape (n - 1).toNat (by omega) f (by omega)
    obtain ⟨hHl, hHv⟩ := hH
    rw [hx, hy, hz, hw.size] at hHl
    rw [hx, hy, hz, hw.size] at hHv
    have hks : (k + 1) * blockSize M ≤ (blocks M.elmap M.var).length * blockSize M := Nat.mul_le_mul_right _ (by omega)
    have hks' : (k + 1) * blockSize M = k * blockSize M + blockSize M := Nat.succ_mul _ _
    refine words_ext M.wdsz (M.lr1.z * M.lr1.y * M.lr1.x) _ _ hHl ?_ fun j hj => ?_
    · rw [List.length_take, List.length_drop]
      have : blockSize M = M.lr1.z * M.lr1.y * M.lr1.x * M.wdsz := by unfold blockSize; ring
      omega
    · have hx0 : 0 < M.lr1.x := Nat.pos_of_ne_zero fun hc => by rw [hc, Nat.mul_zero] at hj; omega
      have hy0 : 0 < M.lr1.y := Nat.pos_of_ne_zero fun hc => by rw [hc, Nat.mul_zero, Nat.zero_mul] at hj; omega
      have hjx : j / M.lr1.x < M.lr1.z * M.lr1.y := (Nat.div_lt_iff_lt_mul hx0).mpr hj
      have hjy : j / M.lr1.x / M.lr1.y < M.lr1.z := (Nat.div_lt_iff_lt_mul hy0).mpr hjx
      have hj1 : (j / M.lr1.x / M.lr1.y * M.lr1.y + j / M.lr1.x % M.lr1.y) * M.lr1.x + j % M.lr1.x = j := by
        rw [Nat.div_add_mod' (j / M.lr1.x) M.lr1.y, Nat.div_add_mod' j M.lr1.x]
      have hv := hHv _ hjy _ (Nat.mod_lt (j / M.lr1.x) hy0) _ (Nat.mod_lt j hx0)
      rw [hblk k f n d ht, hj1] at hv
      rw [hv]
      have hbs : blockSize M = M.lr1.z * M.lr1.y * M.lr1.x * M.wdsz := by unfold blockSize; ring
      have hjw : (j + 1) * M.wdsz ≤ blockSize M := by rw [hbs]; exact Nat.mul_le_mul_right _ (by omega)
      have hjw' : (j + 1) * M.wdsz = j * M.wdsz + M.wdsz := Nat.succ_mul _ _
      -- the word in the file
      have hq : k * blockSize M + j * M.wdsz = (k * (M.lr1.z * M.lr1.y * M.lr1.x) + j) * M.wdsz := by rw [hbs]; ring
      have hword : (((b.drop (136 + 4 * M.elmap.length + k * blockSize M)).take (blockSize M)).drop (j * M.wdsz)).take M.wdsz =
          (b.drop (136 + 4 * M.elmap.length + (k * (M.lr1.z * M.lr1.y * M.lr1.x) + j) * M.wdsz)).take M.wdsz := by
        rw [List.drop_take, List.take_take, List.drop_drop, Nat.min_eq_left (by omega), Nat.add_assoc _ (k * _), hq]
      rw [hword]
      have hK := hkeep e he (k * (M.lr1.z * M.lr1.y * M.lr1.x) + j) (by
        rw [Nat.add_assoc, Nat.add_mul, hjw', Nat.mul_assoc k, ← hbs]
        omega)
      unfold Kept at hK
      rw [hw.size] at hK
      rw [← hK]
      congr 2
      · rw [← hword]
        unfold bufVal
        rcases hok.wdsz with h4 | h8
        · rw [h4, if_pos (by rfl), if_pos (by rfl), Nat.zero_mul, List.drop_zero, List.take_take, Nat.min_self]
        · rw [h8, if_neg (by decide), if_neg (by decide), Nat.zero_mul, List.drop_zero, List.take_take, Nat.min_self]
  have hlen : ∀ c ∈ bs, c.length = blockSize M := by
    intro c hc
    obtain ⟨k, hk, rfl⟩ := List.getElem_of_mem hc
    have := hone k _ (List.getElem?_eq_getElem hk)
    have hks : (k + 1) * blockSize M ≤ (blocks M.elmap M.var).length * blockSize M := Nat.mul_le_mul_right _ (by omega)
    have hks' : (k + 1) * blockSize M = k * blockSize M + blockSize M := Nat.succ_mul _ _
    rw [this, List.length_take, List.length_drop]
    omega
  have hbs : bs.flatten = (b.drop (136 + 4 * M.elmap.length)).take ((blocks M.elmap M.var).length * blockSize M) := by
    have hfl := flatten_length_const _ _ hlen
    rw [hlb] at hfl
    refine words_ext (blockSize M) (blocks M.elmap M.var).length _ _ hfl ?_ fun k hk => ?_
    · rw [List.length_take, List.length_drop]; omega
    · have hkb : k < bs.length := by omega
      have hk' : bs[k]? = some bs[k] := List.getElem?_eq_getElem hkb
      have h6 := block_flatten _ _ hlen k _ hk' []
      rw [List.append_nil] at h6
      have hks : (k + 1) * blockSize M ≤ (blocks M.elmap M.var).length * blockSize M := Nat.mul_le_mul_right _ (by omega)
      have hks' : (k + 1) * blockSize M = k * blockSize M + blockSize M := Nat.succ_mul _ _
      rw [h6, hone k _ hk', List.drop_take, List.take_take, List.drop_drop, Nat.min_eq_left (by omega)]
  obtain ⟨hd', h1', hde⟩ := headerW_ok M hok.wdsz
  have hdd : hd = hd' := Except.ok.inj (h1.symm.trans h1')
  refine ⟨hacc, hd, encW e 4 (Flt.ofRat (eb := 8) (mb := 23) false (654321 / 100000)).bits, ps.flatten, ?_, encW_length _ _ _, ?_, ?_, ?_⟩
  · rw [hdd, hde]
    exact ⟨rfl, rfl, rfl, rfl, rfl, rfl, rfl, rfl, rfl, rfl, rfl⟩
  · split
    · next h3d =>
      rw [if_pos h3d] at h3
      have hl : ps.length = (pairs M.elmap M.var).length := by
        have := congrArg List.length h3
        rw [List.length_map, List.length_map] at this
        exact this.symm
      have h8 : ∀ c ∈ ps, c.length = 8 := by
        intro c hc
        have : (.ok c : Py Bytes) ∈ (pairs M.elmap M.var).map (pairW native' M) := by
          rw [h3]; exact List.mem_map_of_mem hc
        obtain ⟨t, -, ht⟩ := List.mem_map.mp this
        exact pairW_length native' M t c ht
      rw [flatten_length_const 8 ps h8, hl, pairs_length, blocks_length, Nat.mul_comm]
    · next h3d =>
      rw [if_neg h3d] at h3
      have : ps = [] := by
        cases ps with
        | nil => rfl
        | cons a l => simp at h3
      rw [this]; rfl
  · unfold bodySize; omega
  · rw [h4, hem, hbs, bodySize, ← List.append_assoc ((b.drop 136).take (4 * M.elmap.length)), List.take_add, List.drop_drop]

/-! ### The property -/

/-- **C111**, double precision: read into double-precision arrays and written again. -/
theorem C111_double (native native' : Endian) (b : Bytes) (M : HexaData F64) (hr : readnek native [] b = .ok M)
    (hp : PermMap M.nel M.elmap) (h8 : M.wdsz = 8) (hpts : M.ndim = 3 → 0 < M.lr1.x ∧ 0 < M.lr1.y ∧ 0 < M.lr1.z) :
    (writenek native' M).2 = none ∧ Rewritten b M (writenek native' M).1 := by
  refine rewrite_spec native native' b M hr hp (.inr h8.symm) hpts fun e he i hi => ?_
  have hl := readnek_length native b M hr hp
  have hs : (i + 1) * M.wdsz = i * M.wdsz + M.wdsz := Nat.succ_mul _ _
  have hlen : ((b.drop (136 + 4 * M.elmap.length + i * M.wdsz)).take M.wdsz).length = 8 := by
    rw [List.length_take, List.length_drop]; omega
  generalize (b.drop (136 + 4 * M.elmap.length + i * M.wdsz)).take M.wdsz = w at hlen ⊢
  rw [h8]
  unfold Kept wordSize wordBits bufVal
  rw [if_neg (by decide), if_neg (by decide), if_neg (by decide), Nat.zero_mul, List.drop_zero, List.take_of_length_le (by omega)]
  have h1 := decW_lt e w
  rw [hlen] at h1
  have h2 := Flt.bits_ofBits (eb := 11) (mb := 52) (decW e w) h1
  show encW e 8 (Flt.ofBits (decW e w) : F64).bits = w
  rw [h2, ← hlen]
  exact encW_decW e w

/-- **C111**, single precision: read into single-precision arrays and written again. -/
theorem C111_single (native native' : Endian) (b : Bytes) (M : HexaData F32) (hr : readnek native [] b = .ok M)
    (hp : PermMap M.nel M.elmap) (h4 : M.wdsz = 4) (hpts : M.ndim = 3 → 0 < M.lr1.x ∧ 0 < M.lr1.y ∧ 0 < M.lr1.z) :
    (writenek native' M).2 = none ∧ Rewritten b M (writenek native' M).1 := by
  refine rewrite_spec native native' b M hr hp (.inl h4) hpts fun e he i hi => ?_
  have hl := readnek_length native b M hr hp
  have hs : (i + 1) * M.wdsz = i * M.wdsz + M.wdsz := Nat.succ_mul _ _
  have hlen : ((b.drop (136 + 4 * M.elmap.length + i * M.wdsz)).take M.wdsz).length = 4 := by
    rw [List.length_take, List.length_drop]; omega
  generalize (b.drop (136 + 4 * M.elmap.length + i * M.wdsz)).take M.wdsz = w at hlen ⊢
  rw [h4]
  unfold Kept wordSize wordBits bufVal
  rw [if_pos rfl, if_pos rfl, if_pos (by decide), Nat.zero_mul, List.drop_zero, List.take_of_length_le (by omega)]
  have h1 := decW_lt e w
  rw [hlen] at h1
  have h2 := Flt.bits_ofBits (eb := 8) (mb := 23) (decW e w) h1
  show encW e 4 (Flt.ofBits (decW e w) : F32).bits = w
  rw [h2, ← hlen]
  exact encW_decW e w

/-- The four bytes are not those of a signalling NaN. -/
def Spec.Quiet (e : Endian) (w : Bytes) : Prop :=
  ¬ (2139095040 < decW e w % 2 ^ 31 ∧ decW e w % 2 ^ 31 < 2143289344)

/-- **C111**, single precision: read into double-precision arrays (the default of `readnek`) and written again. A
signalling NaN would become a quiet one. -/
theorem C111_widened (native native' : Endian) (b : Bytes) (M : HexaData F64) (hr : readnek native [] b = .ok M)
    (hp : PermMap M.nel M.elmap) (h4 : M.wdsz = 4) (hpts : M.ndim = 3 → 0 < M.lr1.x ∧ 0 < M.lr1.y ∧ 0 < M.lr1.z)
    (hq : ∀ e, M.endian = some e → ∀ i : Nat, (i + 1) * 4 ≤ (blocks M.elmap M.var).length * blockSize M →
      Quiet e ((b.drop (136 + 4 * M.elmap.length + i * 4)).take 4)) :
    (writenek native' M).2 = none ∧ Rewritten b M (writenek native' M).1 := by
  refine rewrite_spec native native' b M hr hp (.inl h4) hpts fun e he i hi => ?_
  have hl := readnek_length native b M hr hp
  have hs : (i + 1) * M.wdsz = i * M.wdsz + M.wdsz := Nat.succ_mul _ _
  have hlen : ((b.drop (136 + 4 * M.elmap.length + i * M.wdsz)).take M.wdsz).length = 4 := by
    rw [List.length_take, List.length_drop]; omega
  rw [h4] at hi
  have hq : Quiet e ((b.drop (136 + 4 * M.elmap.length + i * M.wdsz)).take M.wdsz) := by rw [h4]; exact hq e he i hi
  generalize (b.drop (136 + 4 * M.elmap.length + i * M.wdsz)).take M.wdsz = w at hlen hq ⊢
  rw [h4]
  unfold Kept wordSize wordBits bufVal
  rw [if_pos rfl, if_pos rfl, if_pos (by decide), Nat.zero_mul, List.drop_zero, List.take_of_length_le (by omega)]
  have h1 := decW_lt e w
  rw [hlen] at h1
  have h2 := Flt.bits_ofBits (eb := 8) (mb := 23) (decW e w) h1
  have h3 : Flt.toF32 (Flt.toF64 (Flt.ofBits (decW e w))) = Flt.ofBits (decW e w) := by
    apply Flt.toF32_toF64
    unfold Flt.IsNaN
    rw [Flt.infMag32]
    unfold Quiet at hq
    have hm : (Flt.ofBits (decW e w) : F32).mag = decW e w % 2 ^ 31 := rfl
    rw [hm]
    clear * - hq
    omega
  show encW e 4 (Flt.toF32 (Flt.toF64 (Flt.ofBits (decW e w)))).bits = w
  rw [h3, h2, ← hlen]
  exact encW_decW e w

/-! ### Part of a field -/

/-- All elements, in order. -/
def Spec.allElems (n : Nat) : List Int := (List.range n).map fun i : Nat => (i : Int) + 1

/-- A file is only read if it has as many blocks as its header says. -/
theorem readnek_needs (native : Endian) (b : Bytes) (M : HexaData F) (hr : readnek native [] b = .ok M) (h : Header)
    (hh : readHeader b = .ok h) (hnn : 0 ≤ h.nbElemsFile) :
    h.nbElemsFile.toNat * (h.var.pos + h.var.vel + h.var.pres + h.var.temp + h.var.scal) * h.blk + 136 + 4 * h.nbElemsFile.toNat ≤
      b.length := by
  obtain ⟨h', e, elmap, hP, -, hen, -⟩ := readnek_ok native [] b M hr
  have hh' : h' = h := Except.ok.inj (hP.header.symm.trans hh)
  subst hh'
  have hel : elmap.length = h'.nbElemsFile.toNat := by rw [hP.map, List.length_map, words_length]
  have hmapl := hP.mapLen
  unfold elmapBytes at hmapl
  rw [if_pos hnn, List.length_take, List.length_drop] at hmapl
  have htag : 136 ≤ b.length := by
    have := hP.tag
    unfold tagEndian at this
    split at this
    · cases this
    · next h4 =>
      rw [List.length_take, List.length_drop] at h4
      omega
  have hfo : (fileOrder elmap h'.nbElemsFile.toNat).length = h'.nbElemsFile.toNat := by
    unfold fileOrder
    split
    · rw [List.length_map, List.length_range]
    · exact hel
  have hbl := blocks_length (fileOrder elmap h'.nbElemsFile.toNat) h'.var
  rw [hfo] at hbl
  rw [acts_noskip] at hen
  rw [← hbl]
  rcases Nat.eq_zero_or_pos (blocks (fileOrder elmap h'.nbElemsFile.toNat) h'.var).length with h0 | h0
  · rw [h0, Nat.zero_mul]; omega
  · have hk : (blocks (fileOrder elmap h'.nbElemsFile.toNat) h'.var)[(blocks (fileOrder elmap h'.nbElemsFile.toNat) h'.var).length - 1]? =
        some ((blocks (fileOrder elmap h'.nbElemsFile.toNat) h'.var)[(blocks (fileOrder elmap h'.nbElemsFile.toNat) h'.var).length - 1]'(by omega)) :=
      List.getElem?_eq_getElem _
    have h1 := enough_get h' _ _ hen ((blocks (fileOrder elmap h'.nbElemsFile.toNat) h'.var).length - 1) _ _ _
      (by rw [List.getElem?_map, hk]; rfl)
    rw [Nat.sub_add_cancel h0, dataSection, List.length_drop, List.length_drop] at h1
    rcases h1 with h1 | h1
    · omega
    · rw [h1]; omega

/-- **C112**, counterexample in general form. A part of a field, as read from one of several files: the complete field
can be stored, but the element map names fewer elements than there are. It is written without complaint, under a header
announcing all elements, and the file is too short to be read. (In three dimensions the extreme values at the end of
the file must not make up for the missing blocks; they do not if a block has more than a few numbers.) -/
theorem C112_unreadable {G : Type} [FloatTy G] (native native' : Endian) (M : HexaData F)
    (hC : Storable { M with elmap := allElems M.nel }) (hw : WordOK F M.wdsz) (hm : ∀ n ∈ M.elmap, 1 ≤ n ∧ n ≤ M.nel)
    (hl : M.elmap.length < M.nel) (h3 : M.ndim = 3 →
      M.elmap.length * (4 + (M.var.pos + M.var.vel + M.var.pres + M.var.temp + M.var.scal) * (blockSize M + 8)) <
        M.nel * (4 + (M.var.pos + M.var.vel + M.var.pres + M.var.temp + M.var.scal) * blockSize M)) :
    ∃ content, writenek native M = (content, none) ∧ ∃ err, (readnek native' [] content : Py (HexaData G)) = .error err := by
  have hok : FieldOK M := ⟨hC.wdsz, hC.len, hC.shape, hm, hC.small⟩
  have hacc := writenek_accepts native M hok (fun h3 => by
    have h := hC.points h3
    have hd := hC.dim
    dsimp only at h hd
    rw [h3] at hd
    refine ⟨h.1, h.2, ?_⟩
    split at hd <;> omega)
  obtain ⟨hd, bs, ps, h1, h2, h3', h4⟩ := writenek_none native M hacc
  obtain ⟨hd', h1', hlen, hread⟩ := hC.header_read
  have hdd : hd = hd' := Except.ok.inj (h1.symm.trans h1')
  subst hdd
  generalize hn : M.var.pos + M.var.vel + M.var.pres + M.var.temp + M.var.scal = c at h3
  have hlb : bs.length = M.elmap.length * c := by
    have := congrArg List.length h2
    rw [List.length_map, List.length_map, blocks_length, hn] at this
    exact this.symm
  have hbs : ∀ x ∈ bs, x.length = blockSize M := by
    intro x hx
    have : (.ok x : Py Bytes) ∈ (blocks M.elmap M.var).map (blockW native M) := by rw [h2]; exact List.mem_map_of_mem hx
    obtain ⟨⟨f, n, d⟩, ht, htx⟩ := List.mem_map.mp this
    obtain ⟨hn, hdc⟩ := (mem_blocks _ _ _ _ _).mp ht
    obtain ⟨i, hi, -, hH⟩ := blockW_ok native M f n d x htx
    have hr := hm n hn
    rw [hok.len, pyIndex_elmap hr.1 hr.2] at hi
    have hi := (Except.ok.inj hi).symm
    subst hi
    obtain ⟨⟨sx, sy, sz⟩, -⟩ := hok.shape (n - 1).toNat (by omega) f (by omega)
    rw [hH.1, sx, sy, sz, hw.size]
    unfold blockSize; ring
  have hps : ps.flatten.length = if M.ndim = 3 then 8 * (M.elmap.length * c) else 0 := by
    split at h3'
    · next h =>
      rw [if_pos h]
      have hl : ps.length = M.elmap.length * c := by
        have := congrArg List.length h3'
        rw [List.length_map, List.length_map, pairs_length, hn] at this
        exact this.symm
      rw [flatten_length_const 8, hl, Nat.mul_comm]
      intro b hb
      have : (Except.ok b : Py Bytes) ∈ ps.map Except.ok := List.mem_map_of_mem hb
      rw [← h3'] at this
      obtain ⟨t, -, ht⟩ := List.mem_map.mp this
      exact pairW_length native M t b ht
    · next h =>
      rw [if_neg h]
      have : ps = [] := by simpa using h3'.symm
      rw [this]; rfl
  refine ⟨_, h4, ?_⟩
  generalize hcont : hd.asBytes ++ (encW (fileEndian native M.endian) 4 (Flt.ofRat (eb := 8) (mb := 23) false (654321 / 100000)).bits ++
    ((M.elmap.flatMap fun i => encW (fileEndian native M.endian) 4 (i32Bits i)) ++ (bs.flatten ++ ps.flatten))) = content
  have hsize : content.length = 136 + 4 * M.elmap.length + M.elmap.length * c * blockSize M + ps.flatten.length := by
    rw [← hcont, List.length_append, List.length_append, List.length_append, List.length_append, hlen, encW_length,
      flatMap_length_const 4 _ _ (fun _ _ => encW_length _ _ _), flatten_length_const _ _ hbs, hlb]
    ring
  have hhead : readHeader content = .ok (headerR { M with elmap := allElems M.nel }) := by rw [← hcont]; exact hread _
  cases hr : (readnek native' [] content : Py (HexaData G)) with
  | error err => exact ⟨err, rfl⟩
  | ok M1 =>
    exfalso
    have hfin := readnek_needs native' content M1 hr _ hhead (Int.natCast_nonneg _)
    rw [headerR_blk, headerR_var] at hfin
    change M.nel * (M.var.pos + M.var.vel + M.var.pres + M.var.temp + M.var.scal) * blockSize M + 136 + 4 * M.nel ≤ content.length at hfin
    rw [hn] at hfin
    rw [hsize, hps] at hfin
    split at hfin
    · next hd3 =>
      have h5 := h3 hd3
      have e1 : M.elmap.length * (4 + c * (blockSize M + 8)) =
          4 * M.elmap.length + M.elmap.length * c * blockSize M + 8 * (M.elmap.length * c) := by ring
      have e2 : M.nel * (4 + c * blockSize M) = M.nel * c * blockSize M + 4 * M.nel := by ring
      omega
    · have e1 : M.elmap.length * c * blockSize M ≤ M.nel * c * blockSize M :=
        Nat.mul_le_mul_right _ (Nat.mul_le_mul_right _ (by omega))
      omega

/-- **C112** is false in the code: the first of two files of a field is read, but what `writenek` makes of it cannot be
read again. -/
theorem C112_false : ∃ (b : Bytes) (M : HexaData F32), readnek .little [] b = .ok M ∧ (writenek .little M).2 = none ∧
    ∃ err, (readnek .little [] (writenek .little M).1 : Py (HexaData F32)) = .error err := by
  cases h : (readnek .little [] Samples.part : Py (HexaData F32)) with
  | error e =>
    have : (readnek .little [] Samples.part : Py (HexaData F32)).isOk = true := by decide +kernel
    rw [h] at this
    cases this
  | ok M =>
    have h1 : (match (readnek .little [] Samples.part : Py (HexaData F32)) with
        | .ok M => (writenek .little M).2.isNone && !(readnek .little [] (writenek .little M).1 : Py (HexaData F32)).isOk
        | .error _ => false) = true := by decide +kernel
    rw [h] at h1
    simp only [Bool.and_eq_true, Option.isNone_iff_eq_none, Bool.not_eq_true'] at h1
    refine ⟨_, M, h, h1.1, ?_⟩
    cases h2 : (readnek .little [] (writenek .little M).1 : Py (HexaData F32)) with
    | error err => exact ⟨err, rfl⟩
    | ok M' => rw [h2] at h1; cases h1.2

/-- **C112**, the part that holds: whatever is written for a field read from a file with all its elements can be read
again, if its header fits in 132 characters. -/
theorem C112_partial {G : Type} [FloatTy G] (native native' : Endian) (b : Bytes) (M : HexaData F) (hr : readnek native [] b = .ok M)
    (hp : PermMap M.nel M.elmap) (hw : WordOK F M.wdsz) (hpts : M.ndim = 3 → 0 < M.lr1.x ∧ 0 < M.lr1.y)
    (hfit : ∀ hd, headerW M = .ok hd → hd.text.length ≤ 132)
    (hsome : 0 < M.var.pos ∨ 0 < M.var.vel ∨ 0 < M.var.pres ∨ 0 < M.var.temp ∨ 0 < M.var.scal) :
    Storable M ∧ ∃ content, writenek native M = (content, none) ∧ ∃ M' : HexaData G, readnek native' [] content = .ok M' := by
  have hok := readnek_fieldOK native b M hr hp
  obtain ⟨h, e, elmap, hP, hv, hen, hM⟩ := readnek_ok native [] b M hr
  obtain ⟨hd, -, hvar⟩ := C08_derived b h hP.header
  have hs : Storable M := by
    have hnd : M.ndim = h.nbDims := by rw [hM]; rfl
    have hz : M.lr1.z = h.oz.toNat := by rw [hM]; rfl
    have hvv : M.var = h.var := by rw [hM]; rfl
    have hcnt : (h.nbVars.pos = 0 ∨ h.nbVars.pos = h.nbDims) ∧ (h.nbVars.vel = 0 ∨ h.nbVars.vel = h.nbDims) := by
      clear hd
      unfold variablesToVars at hvar
      dsimp only at hvar
      have hn : ∀ (c : Char) (m : Nat), (if c ∈ h.vstr then m else 0) = 0 ∨ (if c ∈ h.vstr then m else 0) = m := by
        intro c m; split <;> simp
      split at hvar
      · rw [← Except.ok.inj hvar]
        exact ⟨hn _ _, hn _ _⟩
      · split at hvar
        · rw [← Except.ok.inj hvar]
          exact ⟨hn _ _, hn _ _⟩
        · cases hvar
    have hle := variablesToVars_le _ _ _ hvar
    refine ⟨hok, ?_, ?_, ?_, ?_, ?_, hsome, ?_, ?_, hpts, hfit⟩
    · rw [hnd, hd, hz]; split <;> split <;> omega
    · rw [hvv, hnd]; exact hcnt.1
    · rw [hvv, hnd]; exact hcnt.2
    · rw [hvv]; exact hle.2.2.1
    · rw [hvv]; exact hle.2.2.2
    · rw [hp.length_eq, List.length_map, List.length_range]
    · intro i hi
      exact hp.mem_iff.mpr (List.mem_map.mpr ⟨i, List.mem_range.mpr hi, rfl⟩)
  obtain ⟨c, h1, M', h2, -⟩ := roundtrip (storedAs G M.wdsz) native native' M hs hw.size (bufVal_storedAs M.wdsz hs.wdsz hw)
  exact ⟨hs, c, h1, M', h2⟩

/-! ### Examples -/

namespace Samples

/-- A file of word size 8 in two dimensions: one element with four points, a tag that pymech would write differently,
and a header with more blanks than pymech writes. -/
def foreign8 : Bytes :=
  encodeT (ljust 132 "#std 8   2 2 1   1 1  0.25   3 0 1  XP".toList) ++ encW .big 4 1087463935 ++ encW .big 4 (i32Bits 1) ++
    (List.range 12).flatMap fun k => encW .big 8 (4607182418800017408 + 4503599627370495 * k)

/-- Three dimensions, word size 4, two elements in reverse order, one of the numbers a signalling NaN. -/
def foreign4 (bad : Nat) : Bytes :=
  encodeT (ljust 132 "#std 4 1 1 2 2 2 0.5 7 0 1 T".toList) ++ encW .little 4 1087463935 ++ encW .little 4 (i32Bits 2) ++
    encW .little 4 (i32Bits 1) ++ nums [1, 2, 3] ++ encW .little 4 bad

/-- Whether a file is read and written again with the same element map and numbers. -/
def keeps (F : Type) [FloatTy F] (b : Bytes) (tail : Nat) : Bool :=
  match (readnek .little [] b : Py (HexaData F)) with
  | .ok M => decide (M.elmap.Perm ((List.range M.nel).map fun i : Nat => (i : Int) + 1)) && (writenek .little M).2.isNone &&
      decide ((writenek .little M).1.length = b.length + tail) &&
      decide ((((writenek .little M).1.drop 136).take (b.length - 136)) = b.drop 136)
  | .error _ => false

/-- The two-dimensional field with one of its elements only. -/
def field2part : HexaData F64 := { field2 with elmap := [2] }

theorem field2part_ok : Storable { field2part with elmap := allElems field2part.nel } :=
  ⟨⟨field2_ok.wdsz, field2_ok.len, field2_ok.shape, by decide +kernel, field2_ok.small⟩, field2_ok.dim, field2_ok.pos, field2_ok.vel,
    field2_ok.pres, field2_ok.temp, field2_ok.something, by decide +kernel, by decide +kernel, field2_ok.points,
    fitsB _ (by decide +kernel)⟩

end Samples

-- C111_double, C111_single, C111_widened
example : Samples.keeps F64 Samples.foreign8 0 = true ∧ Samples.keeps F32 (Samples.foreign4 2139095041) 16 = true ∧
    Samples.keeps F64 (Samples.foreign4 1065353216) 16 = true := by decide +kernel
-- the condition on NaNs is needed
example : Samples.keeps F64 (Samples.foreign4 2139095041) 16 = false := by decide +kernel
-- C112_unreadable
example : Storable { Samples.field2part with elmap := allElems Samples.field2part.nel } ∧ WordOK F64 Samples.field2part.wdsz ∧
    (∀ n ∈ Samples.field2part.elmap, 1 ≤ n ∧ n ≤ Samples.field2part.nel) ∧ Samples.field2part.elmap.length < Samples.field2part.nel ∧
    Samples.field2part.ndim ≠ 3 :=
  ⟨Samples.field2part_ok, .inr (by decide +kernel), by decide +kernel, by decide +kernel, by decide +kernel⟩
-- C112_partial
example : (match (readnek .little [] (Samples.foreign4 1065353216) : Py (HexaData F64)) with
    | .ok M => (readnek .big [] (writenek .little M).1 : Py (HexaData F64)).isOk
    | .error _ => false) = true := by decide +kernel

end Pymech
