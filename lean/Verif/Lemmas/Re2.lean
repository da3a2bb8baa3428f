import Verif.Spec.Re2
import Verif.Lemmas.WriteFile
import Verif.Lemmas.Text
import Verif.Props.Tag

/-!
# Lemmas on `.re2` files
-/

namespace Pymech

open Spec

/-! ### Integers in doubles -/

theorem natF64_val (n : Nat) (hn : n < 2 ^ 53) : (natF64 n).Finite ∧ (natF64 n).val = n := by
  obtain ⟨m, hm, hv⟩ := Flt.exists_mag (eb := 11) (mb := 52) n 0 hn (by rw [Flt.minExp64]; omega) (by rw [Flt.minExp64]; decide)
  rw [zpow_zero, mul_one] at hv
  have h1 : (natF64 n).mag = m := by
    show Flt.roundMag 11 52 (n : ℚ) = m
    rw [← hv, Flt.roundMag_magVal m hm]
  refine ⟨by unfold Flt.Finite; rw [h1]; exact hm, ?_⟩
  unfold Flt.val
  rw [h1, hv]
  rfl

theorem f64Int_nat (n : Nat) (hn : n < 2 ^ 53) : f64Int (natF64 n) = .ok (n : Int) := by
  obtain ⟨h1, h2⟩ := natF64_val n hn
  unfold f64Int
  rw [if_pos h1, h2]
  unfold trunc
  rw [if_pos (by positivity)]
  simp

/-! ### Records -/

theorem decW8 (e : Endian) (x : F64) : (Flt.ofBits (decW e (encW e 8 x.bits)) : F64) = x := by
  rw [decW_encW, Nat.mod_eq_of_lt (F64.bits_lt x), Flt.ofBits_bits]

theorem s8_length (b : Bytes) : (s8 b).length = 8 := by
  unfold s8
  rw [List.length_append, List.length_take, List.length_replicate]
  omega

/-- A record in byte order `e`. -/
def recE (e : Endian) (i k : Nat) (p : Nat → F64) (t : Bytes) : Bytes :=
  ([natF64 (i + 1), natF64 (k + 1), p 0, p 1, p 2, p 3, p 4].flatMap fun x : F64 => encW e 8 x.bits) ++ s8 t

theorem re2Rec_eq (native : Endian) (o : Option Endian) (i k : Nat) (p : Nat → F64) (t : Bytes) :
    re2Rec native (swapB native o) i k p t = recE (fileEndian native o) i k p t := by
  unfold re2Rec recE w8
  simp only [item_file]
  simp [List.range_succ]

theorem nums_length (e : Endian) (l : List F64) : (l.flatMap fun x : F64 => encW e 8 x.bits).length = l.length * 8 :=
  flatMap_length_const 8 _ _ fun _ _ => encW_length _ _ _

theorem recE_length (e : Endian) (i k : Nat) (p : Nat → F64) (t : Bytes) : (recE e i k p t).length = 64 := by
  unfold recE
  rw [List.length_append, nums_length, s8_length]
  rfl

theorem recNum_list (e : Endian) (l : List F64) (t : Bytes) (j : Nat) (x : F64) (h : l[j]? = some x) :
    recNum e ((l.flatMap fun x : F64 => encW e 8 x.bits) ++ t) j = x := by
  unfold recNum
  rw [Nat.mul_comm, block_flatMap 8 _ l (fun _ _ => encW_length _ _ _) j x h, decW8]

theorem recNum_recE (e : Endian) (i k : Nat) (p : Nat → F64) (t : Bytes) :
    recNum e (recE e i k p t) 0 = natF64 (i + 1) ∧ recNum e (recE e i k p t) 1 = natF64 (k + 1) ∧
      ∀ j < 5, recNum e (recE e i k p t) (2 + j) = p j := by
  refine ⟨recNum_list e _ _ _ _ rfl, recNum_list e _ _ _ _ rfl, fun j hj => recNum_list e _ _ _ _ ?_⟩
  match j, hj with
  | 0, _ => rfl
  | 1, _ => rfl
  | 2, _ => rfl
  | 3, _ => rfl
  | 4, _ => rfl

theorem recRaw_recE (e : Endian) (i k : Nat) (p : Nat → F64) (t : Bytes) : recRaw e e (recE e i k p t) = s8 t := by
  unfold recRaw recE
  rw [List.drop_append_of_le_length (by rw [nums_length]; simp), List.drop_of_length_le (by rw [nums_length]; simp), List.nil_append,
    List.take_of_length_le (by rw [s8_length])]
  have := encW_decW e (s8 t)
  rw [s8_length] at this
  exact this

theorem pyIndex_natCast (n i : Nat) (h : i < n) : pyIndex n ((i + 1 : Nat) - 1 : Int) = .ok i := by
  unfold pyIndex
  rw [if_pos (by omega), if_pos (by omega)]
  congr 1
  omega

theorem decodeAscii_ok (t : Text) (h : ∀ c ∈ t, c.toNat < 128) : decodeAscii (encodeT t) = .ok t := by
  unfold decodeAscii
  rw [if_pos ?_, decodeB_encodeT t fun c hc => by have := h c hc; omega]
  intro x hx
  obtain ⟨c, hc, rfl⟩ := List.mem_map.mp hx
  have := h c hc
  rw [UInt8.toNat_ofNat']
  omega

theorem putCurve_recE (e : Endian) (M : HexaData F64) (i k : Nat) (p : Nat → F64) (c : Char) (hc : c.toNat < 128)
    (hi : i < M.elem.length) (hi' : i < 2 ^ 50) (hk : k < 12) :
    putCurve e e M (recE e i k p (encodeT [c])) = .ok { M with elem := M.elem.modify i fun el => el.setCurve k p [c] } := by
  obtain ⟨h0, h1, h2⟩ := recNum_recE e i k p (encodeT [c])
  unfold putCurve
  rw [if_neg (by rw [recE_length]; omega), h0, h1, recRaw_recE, f64Int_nat _ (by omega), f64Int_nat _ (by omega)]
  have ht : (s8 (encodeT [c])).take 1 = encodeT [c] := rfl
  rw [ht, decodeAscii_ok _ (by simpa using hc)]
  simp only [bind, Except.bind, pure, Except.pure]
  rw [pyIndex_natCast _ _ hi]
  simp only
  rw [pyIndex_natCast _ _ hk]
  simp only
  congr 2
  apply congrArg (M.elem.modify i)
  funext el
  unfold Elem.setCurve
  congr 1
  funext a j
  by_cases hj : j < 5
  · dsimp only
    rw [h2 j hj]
  · simp [hj]

/-- The characters that `strip` removes are the white space of ASCII. -/
theorem isSpaceU_eq (c : Char) : isSpaceU c = white c := by
  rw [Bool.eq_iff_iff]
  unfold isSpaceU isSpaceC white
  simp only [Bool.or_eq_true, Bool.and_eq_true, beq_iff_eq, decide_eq_true_eq, List.contains_eq_mem, List.mem_cons, List.not_mem_nil, or_false]
  omega

/-- White space after a name is removed. -/
theorem rstripT_pad (t : Name) (ht : BCName t) (p : Text) (hp : ∀ c ∈ p, white c = true) : rstripT (t ++ p) = t := by
  obtain ⟨-, -, hl⟩ := ht
  unfold rstripT
  rw [List.reverse_append]
  have : ∀ q : Text, (∀ c ∈ q, white c = true) → (q ++ t.reverse).dropWhile isSpaceU = t.reverse := by
    intro q hq
    induction q with
    | nil =>
      rw [List.nil_append]
      cases h : t.reverse with
      | nil => rfl
      | cons c l =>
        have hc := hl c (by rw [← List.head?_reverse, h]; rfl)
        rw [List.dropWhile_cons_of_neg (by rw [isSpaceU_eq, hc.1]; decide)]
    | cons c q ih =>
      rw [List.cons_append, List.dropWhile_cons_of_pos (by rw [isSpaceU_eq, hq c List.mem_cons_self])]
      exact ih fun c hc => hq c (List.mem_cons_of_mem _ hc)
  rw [this p.reverse fun c hc => hp c (List.mem_reverse.mp hc), List.reverse_reverse]

theorem rstripT_ljust (t : Name) (ht : BCName t) (n : Nat) : rstripT (t ++ List.replicate n ' ') = t :=
  rstripT_pad t ht _ fun c hc => by rw [List.eq_of_mem_replicate hc]; decide

theorem npU3_name (t : Name) (ht : BCName t) : npU3 t = t := by
  obtain ⟨h3, -, hl⟩ := ht
  unfold npU3
  rw [List.take_of_length_le h3]
  cases h : t.reverse with
  | nil => simpa using h.symm
  | cons c l =>
    have hc := hl c (by rw [← List.head?_reverse, h]; rfl)
    rw [List.dropWhile_cons_of_neg, ← h, List.reverse_reverse]
    rw [beq_iff_eq]
    rintro rfl
    exact hc.2 rfl

theorem s8_ljust (t : Name) (h : t.length ≤ 8) : s8 (encodeT (ljust 8 t)) = encodeT (ljust 8 t) := by
  have : (encodeT (ljust 8 t)).length = 8 := by
    rw [encodeT_length, ljust, List.length_append, List.length_replicate]; omega
  unfold s8
  rw [List.take_of_length_le (by omega), this]
  simp

theorem putBC_recE (e : Endian) (b : Nat) (M : HexaData F64) (i k : Nat) (r : BC F64) (ht : BCName r.typ)
    (hi : i < M.elem.length) (hi' : i < 2 ^ 50) (hk : k < 6) :
    putBC e e b M (recE e i k r.par (encodeT (ljust 8 r.typ))) =
      .ok (M.modBC i b k fun _ => { r with own := (i : Int) + 1, ownFace := (k : Int) + 1 }) := by
  obtain ⟨h0, h1, h2⟩ := recNum_recE e i k r.par (encodeT (ljust 8 r.typ))
  unfold putBC
  rw [if_neg (by rw [recE_length]; omega), h0, h1, recRaw_recE, f64Int_nat _ (by omega), f64Int_nat _ (by omega),
    s8_ljust _ (by have := ht.1; omega), decodeAscii_ok]
  · simp only [bind, Except.bind, pure, Except.pure]
    rw [pyIndex_natCast _ _ hi]
    simp only
    rw [pyIndex_natCast _ _ hk]
    simp only
    congr 2
    funext _
    have e0 := h2 0 (by omega)
    have e1 := h2 1 (by omega)
    have e2 := h2 2 (by omega)
    have e3 := h2 3 (by omega)
    have e4 := h2 4 (by omega)
    simp only [Nat.reduceAdd] at e0 e1 e2 e3 e4
    rw [e0, e1, e2, e3, e4, ljust, rstripT_ljust _ ht, npU3_name _ ht]
    push_cast
    rfl
  · intro c hc
    rcases List.mem_append.mp hc with h | h
    · exact ht.2.1 c h
    · rw [List.eq_of_mem_replicate h]; decide

/-! ### Lists of records -/

theorem el_modify (M : HexaData F64) (i j : Nat) (g : Elem F64 → Elem F64) (hj : j < M.elem.length) :
    ({ M with elem := M.elem.modify i g } : HexaData F64).el j = if j = i then g (M.el j) else M.el j := by
  unfold HexaData.el
  dsimp only
  rw [List.getD_eq_getElem?_getD, List.getD_eq_getElem?_getD, List.getElem?_modify, List.getElem?_eq_getElem hj]
  by_cases h : j = i
  · subst h; simp
  · simp [h, Ne.symm h]

theorem foldCurves (e : Endian) (P : Nat × Nat → Nat → F64) (T : Nat × Nat → Name) (L : List (Nat × Nat)) (M : HexaData F64)
    (hL : ∀ t ∈ L, t.1 < M.elem.length ∧ t.1 < 2 ^ 50 ∧ t.2 < 12 ∧ ∃ c : Char, T t = [c] ∧ c.toNat < 128) :
    ∃ M' : HexaData F64, (L.map fun t => recE e t.1 t.2 (P t) (encodeT (T t))).foldlM (putCurve e e) M = .ok M' ∧
      M' = { M with elem := M'.elem } ∧ M'.elem.length = M.elem.length ∧
      ∀ i < M.elem.length, M'.el i =
        { M.el i with curv := fun a j => if (i, a) ∈ L ∧ j < 5 then P (i, a) j else (M.el i).curv a j
                      ccurv := fun a => if (i, a) ∈ L then T (i, a) else (M.el i).ccurv a } := by
  induction L generalizing M with
  | nil => exact ⟨M, rfl, rfl, rfl, fun i _ => by simp⟩
  | cons t L ih =>
    obtain ⟨h1, h2, h3, c, h4, h5⟩ := hL t List.mem_cons_self
    have hstep := putCurve_recE e M t.1 t.2 (P t) c h5 h1 h2 h3
    rw [← h4] at hstep
    obtain ⟨M', hf, hM, hl, he⟩ := ih { M with elem := M.elem.modify t.1 fun el => el.setCurve t.2 (P t) (T t) } (by
      intro u hu
      simpa using hL u (List.mem_cons_of_mem _ hu))
    rw [List.length_modify] at hl
    refine ⟨M', ?_, by rw [hM], hl, ?_⟩
    · rw [List.map_cons, List.foldlM_cons, hstep]
      exact hf
    · intro i hi
      rw [he i (by rw [List.length_modify]; exact hi), el_modify _ _ _ _ hi]
      by_cases hit : i = t.1
      · subst hit
        simp only [if_true, Elem.setCurve]
        congr 1
        · funext a j
          by_cases ha : a = t.2
          · subst ha
            simp only [List.mem_cons, true_or, true_and, Prod.mk.eta]
            split_ifs <;> first | rfl | tauto
          · simp [List.mem_cons, ha, Prod.ext_iff]
        · funext a
          by_cases ha : a = t.2
          · subst ha
            simp
          · simp [List.mem_cons, ha, Prod.ext_iff]
      · simp [hit, List.mem_cons, Prod.ext_iff]

theorem modBC_el' (M : HexaData F64) (i b k j : Nat) (g : BC F64 → BC F64) (hj : j < M.elem.length) :
    (M.modBC i b k g).el j = if j = i then (M.el j).modBC b k g else M.el j := el_modify M i j _ hj

theorem foldBCs (e : Endian) (b : Nat) (R : Nat × Nat → BC F64) (L : List (Nat × Nat)) (M : HexaData F64)
    (hL : ∀ t ∈ L, t.1 < M.elem.length ∧ t.1 < 2 ^ 50 ∧ t.2 < 6 ∧ BCName (R t).typ) :
    ∃ M' : HexaData F64, (L.map fun t => recE e t.1 t.2 (R t).par (encodeT (ljust 8 (R t).typ))).foldlM (putBC e e b) M = .ok M' ∧
      M' = { M with elem := M'.elem } ∧ M'.elem.length = M.elem.length ∧
      ∀ i < M.elem.length, M'.el i =
        { M.el i with bcs := fun b' f => if b' = b ∧ (i, f) ∈ L then
            { R (i, f) with own := (i : Int) + 1, ownFace := (f : Int) + 1 } else (M.el i).bcs b' f } := by
  induction L generalizing M with
  | nil => exact ⟨M, rfl, rfl, rfl, fun i _ => by simp⟩
  | cons t L ih =>
    obtain ⟨h1, h2, h3, h4⟩ := hL t List.mem_cons_self
    have hstep := putBC_recE e b M t.1 t.2 (R t) h4 h1 h2 h3
    have hlen : (M.modBC t.1 b t.2 fun _ => { R t with own := (t.1 : Int) + 1, ownFace := (t.2 : Int) + 1 }).elem.length =
        M.elem.length := by simp [HexaData.modBC]
    obtain ⟨M', hf, hM, hl, he⟩ := ih (M.modBC t.1 b t.2 fun _ => { R t with own := (t.1 : Int) + 1, ownFace := (t.2 : Int) + 1 }) (by
      intro u hu
      rw [hlen]
      exact hL u (List.mem_cons_of_mem _ hu))
    rw [hlen] at hl
    refine ⟨M', ?_, by rw [hM]; rfl, hl, ?_⟩
    · rw [List.map_cons, List.foldlM_cons, hstep]
      exact hf
    · intro i hi
      rw [he i (by rw [hlen]; exact hi), modBC_el' _ _ _ _ _ _ hi]
      by_cases hit : i = t.1
      · subst hit
        simp only [if_true, Elem.modBC]
        congr 1
        funext b' f
        by_cases hf : f = t.2
        · subst hf
          by_cases hb : b' = b
          · simp [hb]
          · simp [hb]
        · simp [List.mem_cons, hf, Prod.ext_iff]
      · simp [hit, List.mem_cons, Prod.ext_iff]

/-! ### Sections of the file -/

theorem countAt_nat (e : Endian) (n : Nat) (hn : n < 2 ^ 53) : countAt e (encW e 8 (natF64 n).bits) = .ok (n : Int) := by
  unfold countAt
  rw [if_neg (by rw [encW_length]; simp), decW8, f64Int_nat n hn]

theorem natF64_zero_bits : (natF64 0).bits = 0 := by decide +kernel

theorem countAt_zero (native e : Endian) : countAt native (encW e 8 (natF64 0).bits) = .ok 0 := by
  rw [natF64_zero_bits]
  cases native <;> cases e <;> decide +kernel

/-- A section of records: their number and the records. -/
def sectionE {α : Type} (e : Endian) (L : List α) (g : α → Bytes) : Bytes := encW e 8 (natF64 L.length).bits ++ L.flatMap g

theorem section_read {α : Type} (native e : Endian) (L : List α) (g : α → Bytes) (hg : ∀ a ∈ L, (g a).length = 64)
    (hL : L.length < 2 ^ 53) (hc : native = e ∨ L = []) (t : Bytes) :
    countAt native ((sectionE e L g ++ t).take 8) = .ok (L.length : Int) ∧
      readMany (64 * (L.length : Int)) ((sectionE e L g ++ t).drop 8) = (L.flatMap g, t) ∧
      words 64 (L.length : Int).toNat (L.flatMap g) = L.map g ∧ (sectionE e L g ++ t).take 8 ≠ [] := by
  have hl : (L.flatMap g).length = L.length * 64 := flatMap_length_const 64 g L hg
  have h8 : (sectionE e L g ++ t).take 8 = encW e 8 (natF64 L.length).bits := by
    unfold sectionE
    rw [List.append_assoc]
    exact List.take_left' (encW_length _ _ _)
  have hd : (sectionE e L g ++ t).drop 8 = L.flatMap g ++ t := by
    unfold sectionE
    rw [List.append_assoc]
    exact List.drop_left' (encW_length _ _ _)
  refine ⟨?_, ?_, ?_, ?_⟩
  · rw [h8]
    rcases hc with rfl | rfl
    · exact countAt_nat _ _ hL
    · exact countAt_zero _ _
  · rw [hd]
    unfold readMany
    rw [if_pos (by omega)]
    have : (64 * (L.length : Int)).toNat = (L.flatMap g).length := by omega
    rw [this, List.take_left, List.drop_left]
  · have := words_flatMap 64 g L hg []
    rw [List.append_nil] at this
    rw [Int.toNat_natCast]
    exact this
  · rw [h8]
    intro h
    have := congrArg List.length h
    rw [encW_length] at this
    simp at this

theorem section_length {α : Type} (e : Endian) (L : List α) (g : α → Bytes) : 8 ≤ (sectionE e L g).length := by
  unfold sectionE
  rw [List.length_append, encW_length]
  omega

/-- The result of the loop over the fields does not depend on the fuel. -/
theorem readFields_fuel (native e : Endian) (n m k : Nat) (rest : Bytes) (M : HexaData F64) (hn : rest.length < n) (hm : rest.length < m) :
    readFields native e n k rest M = readFields native e m k rest M := by
  induction n generalizing m k rest M with
  | zero => omega
  | succ n ih =>
    cases m with
    | zero => omega
    | succ m =>
      unfold readFields
      split
      · rfl
      · rename_i hne
        have h1 : 1 ≤ rest.length := by
          by_contra h
          exact hne (by rw [List.length_eq_zero_iff.mp (by omega : rest.length = 0)]; rfl)
        cases countAt native (rest.take 8) with
        | error x => rfl
        | ok c =>
          have h2 : (readMany (64 * c) (rest.drop 8)).2.length < rest.length := by
            unfold readMany
            split
            · simp only [List.length_drop]; omega
            · simp only [List.length_nil]; omega
          simp only [bind, Except.bind]
          split
          · rfl
          · exact ih _ _ _ _ (by omega) (by omega)

end Pymech
