import Verif.Lemmas.Re2
import Verif.Lemmas.RoundTrip
import Mathlib.Tactic.IntervalCases

/-!
# Round trip of `.re2` files
-/

namespace Pymech

open Spec

/-! ### Header -/

theorem digitsN_le (k n : Nat) (h : n < 10 ^ (k + 1)) : (digitsN n).length ≤ k + 1 := by
  induction k generalizing n with
  | zero =>
    unfold digitsN
    rw [if_pos (by simpa using h)]
    simp
  | succ k ih =>
    unfold digitsN
    split
    · simp
    · rw [List.length_append]
      have := ih (n / 10) (by rw [Nat.div_lt_iff_lt_mul (by omega)]; rw [pow_succ] at h; exact h)
      simp only [List.length_singleton]
      omega

theorem decI_nat (n : Nat) : decI (n : Int) = decN n := by
  unfold decI
  rw [if_neg (by omega)]
  rfl

theorem decN_length_le (k n : Nat) (h : n < 10 ^ (k + 1)) : (decN n).length ≤ k + 1 := by
  rw [decN_eq, List.length_map]
  exact digitsN_le k n h

theorem decN_length_eq (k n : Nat) (h1 : 10 ^ k ≤ n) (h2 : n < 10 ^ (k + 1)) : (decN n).length = k + 1 := by
  rw [decN_eq, List.length_map]
  exact digitsN_length k n h1 h2

theorem re2Text_ascii (nel ndim : Nat) : IsAscii (re2Text nel ndim) := by
  unfold re2Text
  refine isAscii_ljust _ ((((IsAscii.append ?_ (isAscii_rjust _ (isAscii_decI _))).append (isAscii_rjust _ (isAscii_decI _))).append
    (isAscii_rjust _ (isAscii_decI _))).append ?_)
  · intro c hc; revert c hc; decide
  · intro c hc; revert c hc; decide

theorem re2Text_length (nel ndim : Nat) (h : nel < 10 ^ 9) (hd : ndim < 1000) : (re2Text nel ndim).length = 80 := by
  have h1 := decN_length_le 8 nel h
  have h2 := decN_length_le 2 ndim hd
  unfold re2Text ljust rjust
  rw [decI_nat, decI_nat]
  simp only [List.length_append, List.length_replicate]
  have e1 : "#v002".toList.length = 5 := by decide
  have e2 : " this is the hdr".toList.length = 16 := by decide
  rw [e1, e2]
  omega

theorem rjust_blank (w : Nat) (t : Text) (h : t.length ≤ w) : rjust (w + 1) t = ' ' :: rjust w t := by
  unfold rjust
  rw [Nat.succ_sub h, List.replicate_succ]
  rfl

theorem re2_head_word : IsWord "#v002".toList := by unfold IsWord; decide

theorem splitT_word' (w t : Text) (hw : IsWord w) : splitT (w ++ ' ' :: t) = w :: splitT t := splitT_word 0 w hw t

theorem re2_words (nel ndim : Nat) (h : nel < 10 ^ 8) (hd : ndim < 100) :
    ∃ more, splitT (re2Text nel ndim) = "#v002".toList :: decI nel :: decI ndim :: more := by
  have h1 := decN_length_le 7 nel h
  have h2 := decN_length_le 1 ndim hd
  rw [← decI_nat] at h1 h2
  unfold re2Text ljust
  rw [rjust_blank 8 _ h1, rjust_blank 2 _ h2]
  simp only [List.append_assoc, List.cons_append]
  rw [splitT_word' _ _ re2_head_word, splitT_rjust 8 _ (isWord_decI _), splitT_rjust 2 _ (isWord_decI _)]
  exact ⟨_, rfl⟩

/-- Below `10^8` elements the header is read correctly. -/
theorem re2_header (nel ndim : Nat) (h : nel < 10 ^ 8) (hd : ndim < 100) (t : Bytes) :
    ∃ more, splitT (decodeB ((encodeT (re2Text nel ndim) ++ t).take 80)) = "#v002".toList :: decI nel :: decI ndim :: more := by
  rw [List.take_left' (by rw [encodeT_length, re2Text_length _ _ (by omega) (by omega)]), decodeB_ascii (re2Text_ascii _ _)]
  exact re2_words nel ndim h hd

/-! ### Writing -/

/-- Geometry of one element in byte order `e`. -/
def geomE (e : Endian) (nd : Nat) (a : Arr F64) : Bytes :=
  ((List.range (2 ^ nd * nd + 1)).map (re2Coord nd a)).flatMap fun x : F64 => encW e 8 x.bits

theorem geomE_length (e : Endian) (nd : Nat) (a : Arr F64) : (geomE e nd a).length = (nd * 2 ^ nd + 1) * 8 := by
  unfold geomE
  rw [nums_length, List.length_map, List.length_range, Nat.mul_comm nd]

/-- The curved edges in byte order `e`. -/
def curvesE (e : Endian) (M : HexaData F64) : Bytes :=
  sectionE e (curvedEdges M) fun t => recE e t.1 t.2 ((M.el t.1).curv t.2) (encodeT ((M.el t.1).ccurv t.2))

/-- One field of boundary conditions in byte order `e`. -/
def fieldE (e : Endian) (M : HexaData F64) (b : Nat) : Bytes :=
  sectionE e (bcFaces M b) fun t => recE e t.1 t.2 (M.bc t.1 b t.2).par (encodeT (ljust 8 (M.bc t.1 b t.2).typ))

/-- The content of the file. -/
def re2File (e : Endian) (M : HexaData F64) : Bytes :=
  encodeT (re2Text M.nel M.ndim) ++ (encW e 4 (Flt.ofRat (eb := 8) (mb := 23) false (654321 / 100000)).bits ++
    ((M.elem.flatMap fun el => geomE e M.ndim el.pos) ++ (curvesE e M ++ (List.range M.nbc).flatMap (fieldE e M))))

theorem writere2_ok (native : Endian) (M : HexaData F64) (h : Re2Mesh M) :
    writere2 native M = (some (re2File (fileEndian native M.endian) M), none) := by
  have hel : ∀ el ∈ M.elem, ∃ i, i < M.nel ∧ M.el i = el := by
    intro el hm
    obtain ⟨i, hi, rfl⟩ := List.getElem_of_mem hm
    refine ⟨i, by rw [← h.len]; exact hi, ?_⟩
    unfold HexaData.el
    rw [List.getD_eq_getElem?_getD, List.getElem?_eq_getElem hi]
    rfl
  unfold writere2
  have hz : M.ndim - 1 + 1 = M.ndim := by have := h.dim; omega
  rw [if_neg (by rw [h.lr1]; simp [hz]), if_neg (by rw [h.var]; simp)]
  change (some (runWrites (
      [.ok (encodeT (re2Text M.nel M.ndim)),
        .ok (item native (swapB native M.endian) 4 (Flt.ofRat (eb := 8) (mb := 23) false (654321 / 100000)).bits)] ++
      M.elem.map (re2Geom native (swapB native M.endian) M.ndim) ++ [.ok (re2Curves native (swapB native M.endian) M)] ++
      (List.range M.nbc).map (re2Bcs native (swapB native M.endian) M))).1, (runWrites (
      [.ok (encodeT (re2Text M.nel M.ndim)),
        .ok (item native (swapB native M.endian) 4 (Flt.ofRat (eb := 8) (mb := 23) false (654321 / 100000)).bits)] ++
      M.elem.map (re2Geom native (swapB native M.endian) M.ndim) ++ [.ok (re2Curves native (swapB native M.endian) M)] ++
      (List.range M.nbc).map (re2Bcs native (swapB native M.endian) M))).2) = _
  have hg : M.elem.map (re2Geom native (swapB native M.endian) M.ndim) =
      (M.elem.map fun el => geomE (fileEndian native M.endian) M.ndim el.pos).map Except.ok := by
    rw [List.map_map]
    apply List.map_congr_left
    intro el hm
    obtain ⟨i, hi, rfl⟩ := hel el hm
    obtain ⟨s1, s2, s3, s4⟩ := h.shape i hi
    unfold re2Geom geomE w8
    rw [if_pos (.inr ⟨s1, s2.ge, s3.ge, s4.ge⟩)]
    simp only [item_file, List.flatMap_map, Function.comp]
  have hc : re2Curves native (swapB native M.endian) M = curvesE (fileEndian native M.endian) M := by
    unfold re2Curves curvesE sectionE w8
    simp only [item_file, re2Rec_eq]
  have hb : (List.range M.nbc).map (re2Bcs native (swapB native M.endian) M) =
      ((List.range M.nbc).map (fieldE (fileEndian native M.endian) M)).map Except.ok := by
    rw [List.map_map]
    apply List.map_congr_left
    intro b hm
    have hb := List.mem_range.mp hm
    unfold re2Bcs
    rw [if_neg]
    · unfold fieldE sectionE w8
      simp only [item_file, re2Rec_eq, Function.comp]
    · rintro ⟨el, hm, hh⟩
      obtain ⟨i, hi, rfl⟩ := hel el hm
      have := h.rows i hi
      have := h.dim
      omega
  rw [hg, hc, hb]
  have : ∀ (a b c : Bytes) (l m : List Bytes),
      [Except.ok a, .ok b] ++ l.map (Except.ok (ε := PyErr)) ++ [.ok c] ++ m.map .ok = ([a, b] ++ l ++ [c] ++ m).map .ok := by
    intros; simp
  rw [this, runWrites_ok]
  unfold re2File
  simp only [item_file, List.flatten_append, List.flatten_cons, List.flatten_nil, List.append_nil, List.append_assoc, List.flatMap]

/-! ### Reading -/

theorem mem_curvedEdges (M : HexaData F64) (i k : Nat) :
    (i, k) ∈ curvedEdges M ↔ i < M.elem.length ∧ k < 12 ∧ (M.el i).ccurv k ≠ [] := by
  unfold curvedEdges prod2
  simp [and_assoc]

theorem mem_bcFaces (M : HexaData F64) (b i f : Nat) :
    (i, f) ∈ bcFaces M b ↔ i < M.elem.length ∧ f < 2 * M.ndim ∧ Stored (M.bc i b f).typ := by
  unfold bcFaces prod2 Stored
  simp [and_assoc]

theorem prod2_length (a b : List Nat) : (prod2 a b).length = a.length * b.length := by
  unfold prod2
  rw [flatMap_length_const b.length _ _ fun _ _ => by simp]

theorem curvedEdges_length (M : HexaData F64) : (curvedEdges M).length ≤ M.elem.length * 12 := by
  unfold curvedEdges
  refine (List.length_filter_le _ _).trans ?_
  rw [prod2_length, List.length_range, List.length_range]

theorem bcFaces_length (M : HexaData F64) (b : Nat) : (bcFaces M b).length ≤ M.elem.length * (2 * M.ndim) := by
  unfold bcFaces
  refine (List.length_filter_le _ _).trans ?_
  rw [prod2_length, List.length_range, List.length_range]

theorem curvedEdges_count (M : HexaData F64) : (curvedEdges M).length = curvedCount M := by
  unfold curvedEdges prod2 curvedCount
  rw [List.filter_flatMap, List.length_flatMap]
  have : M.elem = (List.range M.elem.length).map M.el := by
    apply List.ext_getElem
    · simp
    · intro i h1 h2
      simp only [List.getElem_map, List.getElem_range]
      unfold HexaData.el
      rw [List.getD_eq_getElem?_getD, List.getElem?_eq_getElem h1]
      rfl
  conv_rhs => rw [this]
  rw [List.map_map]
  congr 1
  apply List.map_congr_left
  intro i _
  rw [List.filter_map, List.length_map]
  rfl

/-- Element `i` after the first `b` fields of boundary conditions have been read. -/
def stageElem (M : HexaData F64) (b i : Nat) : Elem F64 :=
  { re2Elem M i with
    rows := max 1 b
    bcs := fun b' f => if b' < b then (re2Elem M i).bcs b' f else BC.zero }

/-- The mesh after the first `b` fields of boundary conditions have been read. -/
def stage (e : Endian) (M : HexaData F64) (b : Nat) : HexaData F64 :=
  { re2Image e M with nbc := max 1 b, elem := (List.range M.nel).map (stageElem M b) }

theorem stage_last (e : Endian) (M : HexaData F64) : stage e M M.nbc = re2Image e M := by
  have : (List.range M.nel).map (stageElem M M.nbc) = (List.range M.nel).map (re2Elem M) := by
    apply List.map_congr_left
    intro i _
    unfold stageElem re2Elem
    simp only [Elem.mk.injEq, true_and]
    funext b f
    by_cases h : b < M.nbc <;> simp [h]
  unfold stage
  rw [this]
  rfl

theorem stage_len (e : Endian) (M : HexaData F64) (b : Nat) : (stage e M b).elem.length = M.nel := by simp [stage]

theorem stage_el (e : Endian) (M : HexaData F64) (b i : Nat) (hi : i < M.nel) : (stage e M b).el i = stageElem M b i := by
  unfold HexaData.el
  rw [List.getD_eq_getElem?_getD]
  simp [stage, hi]

/-- Two meshes with equal elements. -/
theorem hexa_eq (A B : HexaData F64) (C : HexaData F64) (hA : A = { C with elem := A.elem }) (hB : B = { C with elem := B.elem })
    (hl : A.elem.length = B.elem.length) (he : ∀ i < A.elem.length, A.el i = B.el i) : A = B := by
  have : A.elem = B.elem := by
    apply List.ext_getElem hl
    intro i h1 h2
    have := he i h1
    unfold HexaData.el at this
    rw [List.getD_eq_getElem?_getD, List.getElem?_eq_getElem h1, List.getD_eq_getElem?_getD, List.getElem?_eq_getElem h2] at this
    exact this
  rw [hA, hB, this]

/-- A fresh row of the current field. -/
theorem stage_open (e : Endian) (M : HexaData F64) (b : Nat) :
    (if b > 0 then (stage e M b).addField else stage e M b) =
      { stage e M b with nbc := b + 1, elem := (stage e M b).elem.map fun el => { el with rows := b + 1 } } := by
  split
  · rename_i hb
    unfold HexaData.addField
    have h1 : (stage e M b).nbc + 1 = b + 1 := by
      show max 1 b + 1 = b + 1
      omega
    rw [h1]
    congr 1
    apply List.map_congr_left
    intro el hel
    unfold stage at hel
    obtain ⟨i, -, rfl⟩ := List.mem_map.mp hel
    unfold Elem.addRow stageElem
    have h2 : max 1 b = b := by omega
    simp only [h2]
    congr 1
    funext b' f
    by_cases h : b' = b <;> simp [h]
  · rename_i hb
    have hb : b = 0 := by omega
    subst hb
    unfold stage stageElem
    simp

theorem field_step (native e : Endian) (M : HexaData F64) (h : Re2Mesh M) (hs : M.nel < 10 ^ 8) (b : Nat) (hb : b < M.nbc)
    (hc : native = e ∨ bcFaces M b = []) (t : Bytes) (fuel : Nat) :
    readFields native e (fuel + 1) b (fieldE e M b ++ t) (stage e M b) = readFields native e fuel (b + 1) t (stage e M (b + 1)) := by
  have hn : (bcFaces M b).length < 2 ^ 53 := by
    have h1 := bcFaces_length M b
    rw [h.len] at h1
    have h2 : M.nel * (2 * M.ndim) ≤ M.nel * 6 := Nat.mul_le_mul_left _ (by have := h.dim; omega)
    omega
  obtain ⟨s1, s2, s3, s4⟩ := section_read native e (bcFaces M b)
    (fun t => recE e t.1 t.2 (M.bc t.1 b t.2).par (encodeT (ljust 8 (M.bc t.1 b t.2).typ))) (fun _ _ => recE_length _ _ _ _ _) hn hc t
  have hfold : ∃ M' : HexaData F64, ((bcFaces M b).map fun t =>
      recE e t.1 t.2 (M.bc t.1 b t.2).par (encodeT (ljust 8 (M.bc t.1 b t.2).typ))).foldlM (putBC native e b)
        (if b > 0 then (stage e M b).addField else stage e M b) = .ok M' ∧ M' = stage e M (b + 1) := by
    rw [stage_open]
    have hlen : ({ stage e M b with nbc := b + 1, elem := (stage e M b).elem.map fun el => { el with rows := b + 1 } } : HexaData F64).elem.length
        = M.nel := by simp [stage]
    have hfin : ∃ M' : HexaData F64, ((bcFaces M b).map fun t =>
        recE e t.1 t.2 (M.bc t.1 b t.2).par (encodeT (ljust 8 (M.bc t.1 b t.2).typ))).foldlM (putBC native e b)
          { stage e M b with nbc := b + 1, elem := (stage e M b).elem.map fun el => { el with rows := b + 1 } } = .ok M' ∧
        M' = { ({ stage e M b with nbc := b + 1, elem := (stage e M b).elem.map fun el => { el with rows := b + 1 } } : HexaData F64) with elem := M'.elem } ∧
        M'.elem.length = M.nel ∧
        ∀ i < M.nel, M'.el i = { stageElem M b i with
          rows := b + 1
          bcs := fun b' f =>
            if b' = b ∧ (i, f) ∈ bcFaces M b then { M.bc i b f with own := (i : Int) + 1, ownFace := (f : Int) + 1 }
            else (stageElem M b i).bcs b' f } := by
      have hel : ∀ i < M.nel, ({ stage e M b with nbc := b + 1, elem := (stage e M b).elem.map fun el => { el with rows := b + 1 } } : HexaData F64).el i
          = { stageElem M b i with rows := b + 1 } := by
        intro i hi
        unfold HexaData.el
        rw [List.getD_eq_getElem?_getD]
        simp [stage, hi]
      rcases hc with rfl | hnil
      · obtain ⟨M', h1, h2, h3, h4⟩ := foldBCs native b (fun t => M.bc t.1 b t.2) (bcFaces M b)
          { stage native M b with nbc := b + 1, elem := (stage native M b).elem.map fun el => { el with rows := b + 1 } } (by
            rintro ⟨i, f⟩ ht
            rw [hlen]
            obtain ⟨t1, t2, t3⟩ := (mem_bcFaces _ _ _ _).mp ht
            rw [h.len] at t1
            have := h.dim
            exact ⟨t1, by dsimp only; omega, by dsimp only; omega, h.names i t1 b hb f t2⟩)
        rw [hlen] at h3 h4
        refine ⟨M', h1, h2, h3, fun i hi => ?_⟩
        rw [h4 i hi, hel i hi]
      · rw [hnil]
        refine ⟨_, rfl, rfl, hlen, fun i hi => ?_⟩
        rw [hel i hi]
        simp
    obtain ⟨M', h1, h2, h3, h4⟩ := hfin
    refine ⟨M', h1, ?_⟩
    refine hexa_eq M' _ { stage e M b with nbc := b + 1 } h2 ?_ (by rw [h3, stage_len]) ?_
    · have : max 1 (b + 1) = b + 1 := by omega
      unfold stage
      simp only [this]
    · intro i hi
      rw [h3] at hi
      rw [h4 i hi, stage_el e M _ i hi]
      have : max 1 (b + 1) = b + 1 := by omega
      unfold stageElem
      simp only [this]
      congr 1
      funext b' f
      simp only [mem_bcFaces, h.len]
      unfold re2Elem
      dsimp only
      rcases Nat.lt_trichotomy b' b with hlt | heq | hgt
      · have : b' ≠ b := by omega
        have h5 : b' < b + 1 := by omega
        simp [this, hlt, h5]
      · subst heq
        simp [hi, hb]
      · have h5 : ¬ b' < b + 1 := by omega
        have h6 : ¬ b' < b := by omega
        have h7 : b' ≠ b := by omega
        simp [h5, h6, h7]
  obtain ⟨M', hf, rfl⟩ := hfold
  conv_lhs => unfold readFields
  unfold fieldE
  rw [if_neg s4, s1]
  simp only [bind, Except.bind, s2, s3]
  rw [hf]

theorem fields_read (native e : Endian) (M : HexaData F64) (h : Re2Mesh M) (hs : M.nel < 10 ^ 8)
    (hc : native = e ∨ ∀ b < M.nbc, bcFaces M b = []) (k b : Nat) (hk : b + k = M.nbc) (fuel : Nat) (hf : k < fuel) :
    readFields native e fuel b ((List.range' b k).flatMap (fieldE e M)) (stage e M b) = .ok (re2Image e M) := by
  induction k generalizing b fuel with
  | zero =>
    cases fuel with
    | zero => omega
    | succ fuel =>
      have : b = M.nbc := by omega
      subst this
      rw [stage_last]
      rfl
  | succ k ih =>
    cases fuel with
    | zero => omega
    | succ fuel =>
      rw [List.range'_succ, List.flatMap_cons, field_step native e M h hs b (by omega) (hc.imp id fun hn => hn b (by omega))]
      exact ih (b + 1) (by omega) fuel (by omega)

theorem vert_inv (y x : Nat) (hy : y < 2) (hx : x < 2) : vertNo y x < 4 ∧ vertY (vertNo y x) = y ∧ vertX (vertNo y x) = x := by
  interval_cases y <;> interval_cases x <;> decide

theorem re2Coord_at (nd : Nat) (hnd : nd = 2 ∨ nd = 3) (a : Arr F64) (d z y x : Nat) (hd : d < nd) (hz : z < nd - 1) (hy : y < 2) (hx : x < 2) :
    2 ^ nd * d + 4 * z + 1 + vertNo y x < 2 ^ nd * nd + 1 ∧ re2Coord nd a (2 ^ nd * d + 4 * z + 1 + vertNo y x) = a.dat d z y x := by
  obtain ⟨v1, v2, v3⟩ := vert_inv y x hy hx
  generalize vertNo y x = v at *
  have key : (2 ^ nd * d + 4 * z + 1 + v - 1) / 2 ^ nd = d ∧ (2 ^ nd * d + 4 * z + 1 + v - 1) % 2 ^ nd / 4 = z ∧
      (2 ^ nd * d + 4 * z + 1 + v - 1) % 2 ^ nd % 4 = v ∧ 2 ^ nd * d + 4 * z + 1 + v < 2 ^ nd * nd + 1 := by
    rcases hnd with rfl | rfl <;> norm_num <;> omega
  obtain ⟨k1, k2, k3, k4⟩ := key
  refine ⟨k4, ?_⟩
  unfold re2Coord
  dsimp only
  rw [k1, k2, k3, if_pos ⟨by omega, hd, hz⟩, v2, v3]

theorem geom_read (e : Endian) (nd : Nat) (hnd : nd = 2 ∨ nd = 3) (l : List (Elem F64)) (t : Bytes) (i : Nat) (el : Elem F64) (hi : l[i]? = some el)
    (d z y x : Nat) (hd : d < nd) (hz : z < nd - 1) (hy : y < 2) (hx : x < 2) :
    recNum e (((l.flatMap fun el => geomE e nd el.pos) ++ t).drop ((nd * 2 ^ nd + 1) * 8 * i)) (2 ^ nd * d + 4 * z + 1 + vertNo y x) =
      el.pos.dat d z y x := by
  obtain ⟨k1, k2⟩ := re2Coord_at nd hnd el.pos d z y x hd hz hy hx
  obtain ⟨hil, hiel⟩ := List.getElem?_eq_some_iff.mp hi
  have hlen : ∀ a ∈ l, (geomE e nd a.pos).length = (nd * 2 ^ nd + 1) * 8 := fun a _ => geomE_length e nd a.pos
  rw [Nat.mul_comm _ i, List.drop_append_of_le_length (by
      rw [flatMap_length_const _ _ _ hlen]
      exact Nat.mul_le_mul_right _ hil.le),
    drop_flatMap_const _ _ _ hlen, List.drop_eq_getElem_cons hil, List.flatMap_cons, hiel, List.append_assoc]
  conv_lhs => arg 2; arg 1; unfold geomE
  rw [recNum_list e _ _ _ (re2Coord nd el.pos (2 ^ nd * d + 4 * z + 1 + vertNo y x))]
  · exact k2
  · rw [List.getElem?_map, List.getElem?_range k1]
    rfl

/-- An element with coordinates only, as it is before curved edges are read. -/
def bareElem (M : HexaData F64) (i : Nat) : Elem F64 :=
  { re2Elem M i with curv := fun _ _ => 0, ccurv := fun _ => [], rows := 1, bcs := fun _ _ => BC.zero }

theorem curves_elem (M : HexaData F64) (hl : M.elem.length = M.nel) (i : Nat) (hi : i < M.nel) :
    { bareElem M i with
      curv := fun a j => if (i, a) ∈ curvedEdges M ∧ j < 5 then (M.el i).curv a j else (bareElem M i).curv a j
      ccurv := fun a => if (i, a) ∈ curvedEdges M then (M.el i).ccurv a else (bareElem M i).ccurv a } = stageElem M 0 i := by
  unfold stageElem bareElem re2Elem
  simp only [mem_curvedEdges, hl, hi, true_and, Elem.mk.injEq, Nat.not_lt_zero, if_false, and_true]
  refine ⟨?_, ?_, by simp⟩
  · funext a j
    by_cases h12 : a < 12 <;> simp [h12]
  · funext a
    by_cases h12 : a < 12
    · by_cases hn : (M.el i).ccurv a = [] <;> simp [h12, hn]
    · simp [h12]

theorem re2File_tag (e : Endian) (M : HexaData F64) (hs : M.nel < 10 ^ 8) (hd : M.ndim = 2 ∨ M.ndim = 3) :
    ((re2File e M).drop 80).take 4 = encW e 4 (Flt.ofRat (eb := 8) (mb := 23) false (654321 / 100000)).bits := by
  have h80 : (encodeT (re2Text M.nel M.ndim)).length = 80 := by rw [encodeT_length, re2Text_length _ _ (by omega) (by omega)]
  unfold re2File
  rw [List.drop_left' h80, List.take_left' (encW_length _ _ _)]

theorem tag_written (e : Endian) : tagEndian (encW e 4 (Flt.ofRat (eb := 8) (mb := 23) false (654321 / 100000)).bits) = .ok e := by
  have := C13_written e false
  rw [item_eq] at this
  exact this

theorem re2File_rest (e : Endian) (M : HexaData F64) (hs : M.nel < 10 ^ 8) (hd : M.ndim = 2 ∨ M.ndim = 3) :
    (re2File e M).drop 84 =
      (M.elem.flatMap fun el => geomE e M.ndim el.pos) ++ (curvesE e M ++ (List.range M.nbc).flatMap (fieldE e M)) := by
  have h80 : (encodeT (re2Text M.nel M.ndim)).length = 80 := by rw [encodeT_length, re2Text_length _ _ (by omega) (by omega)]
  unfold re2File
  rw [← List.append_assoc, List.drop_left' (by rw [List.length_append, h80, encW_length])]

theorem re2Geom_length (e : Endian) (M : HexaData F64) (hl : M.elem.length = M.nel) :
    (M.elem.flatMap fun el => geomE e M.ndim el.pos).length = (M.ndim * 2 ^ M.ndim + 1) * 8 * M.nel := by
  rw [flatMap_length_const _ _ _ fun _ _ => geomE_length _ _ _, hl, Nat.mul_comm]

theorem runWrites_err (l : List (Py Bytes)) (x : PyErr) (h : (runWrites l).2 = some x) : .error x ∈ l := by
  induction l with
  | nil => simp [runWrites] at h
  | cons a l ih =>
    cases a with
    | error y =>
      simp only [runWrites, Option.some.injEq] at h
      rw [h]
      exact List.mem_cons_self
    | ok b => exact List.mem_cons_of_mem _ (ih h)

/-- The mesh read from a file that was written, for all combinations of byte orders: the reader's byte order has to be that of the
file, or nothing but coordinates is stored. -/
theorem re2_roundtrip (nw nr : Endian) (M : HexaData F64) (h : Re2Mesh M) (hs : M.nel < 10 ^ 8)
    (hc : nr = fileEndian nw M.endian ∨ Plain M) :
    ∃ b, writere2 nw M = (some b, none) ∧ readre2 nr b = .ok (re2Image (fileEndian nw M.endian) M) := by
  refine ⟨_, writere2_ok nw M h, ?_⟩
  generalize fileEndian nw M.endian = e at hc
  have hcb : nr = e ∨ ∀ b < M.nbc, bcFaces M b = [] := by
    refine hc.imp id fun hp b hb => List.eq_nil_iff_forall_not_mem.mpr ?_
    rintro ⟨i, f⟩ ht
    obtain ⟨t1, t2, t3⟩ := (mem_bcFaces _ _ _ _).mp ht
    rw [h.len] at t1
    exact hp.2 i t1 b hb f t2 t3
  have hcc : nr = e ∨ curvedEdges M = [] := by
    refine hc.imp id fun hp => List.eq_nil_iff_forall_not_mem.mpr ?_
    rintro ⟨i, f⟩ ht
    obtain ⟨t1, t2, t3⟩ := (mem_curvedEdges _ _ _).mp ht
    rw [h.len] at t1
    exact t3 (hp.1 i t1 f t2)
  have hd := h.dim
  obtain ⟨more, hw⟩ := re2_header M.nel M.ndim hs (by omega)
    (encW e 4 (Flt.ofRat (eb := 8) (mb := 23) false (654321 / 100000)).bits ++
      ((M.elem.flatMap fun el => geomE e M.ndim el.pos) ++ (curvesE e M ++ (List.range M.nbc).flatMap (fieldE e M))))
  have htag := re2File_tag e M hs hd
  have hte := tag_written e
  have hrest := re2File_rest e M hs hd
  have hglen := re2Geom_length e M h.len
  have hn : (curvedEdges M).length < 2 ^ 53 := by
    have h1 := curvedEdges_length M
    rw [h.len] at h1
    omega
  obtain ⟨s1, s2, s3, -⟩ := section_read nr e (curvedEdges M)
    (fun t => recE e t.1 t.2 ((M.el t.1).curv t.2) (encodeT ((M.el t.1).ccurv t.2))) (fun _ _ => recE_length _ _ _ _ _) hn hcc
    ((List.range M.nbc).flatMap (fieldE e M))
  unfold readre2
  have hw' : splitT (decodeB ((re2File e M).take 80)) = _ := hw
  rw [hw', htag]
  simp only [bind, Except.bind]
  rw [pyInt_decI, pyInt_decI, hte]
  simp only [orValueError]
  rw [if_neg (by omega)]
  simp only [Int.toNat_natCast]
  rw [hrest, if_neg (by rw [List.length_append, hglen]; omega), if_neg (by omega),
    List.drop_left' hglen]
  have s1' : countAt nr (List.take 8 (curvesE e M ++ (List.range M.nbc).flatMap (fieldE e M))) = .ok ((curvedEdges M).length : Int) := s1
  have s2' : readMany (64 * ((curvedEdges M).length : Int)) (List.drop 8 (curvesE e M ++ (List.range M.nbc).flatMap (fieldE e M))) = _ := s2
  rw [s1']
  simp only
  rw [s2']
  simp only
  rw [s3]
  -- the elements with their coordinates
  generalize hM0 : ({ (HexaData.new nr M.ndim M.nel ⟨2, 2, M.ndim - 1, true⟩ ⟨M.ndim, 0, 0, 0, 0⟩ 1 : HexaData F64) with
    ncurv := (Int.toNat ((curvedEdges M).length : Int)), wdsz := 8, endian := some e, elem := _ } : HexaData F64) = M0
  have hl0 : M0.elem.length = M.nel := by rw [← hM0]; simp [HexaData.new]
  have he0 : ∀ i < M.nel, M0.el i = bareElem M i := by
    intro i hi
    have hil : i < M.elem.length := by rw [h.len]; exact hi
    have hMi : M.elem[i]? = some (M.el i) := by
      unfold HexaData.el
      rw [List.getD_eq_getElem?_getD, List.getElem?_eq_getElem hil]
      rfl
    rw [← hM0]
    unfold HexaData.el
    dsimp only
    rw [List.getD_eq_getElem?_getD]
    simp only [HexaData.new, List.getElem?_mapIdx, List.getElem?_replicate, hi, if_true, Option.map_some, Option.getD_some]
    unfold bareElem re2Elem Elem.new re2Pos Arr.zeros
    simp only
    congr 2
    funext d z y x
    split
    · rename_i hh
      obtain ⟨a1, a2, a3, a4⟩ := hh
      exact geom_read e M.ndim hd M.elem _ i _ hMi d z y x a1 a2 a3 a4
    · rfl
  have hfold : ∃ M' : HexaData F64, ((curvedEdges M).map fun t =>
      recE e t.1 t.2 ((M.el t.1).curv t.2) (encodeT ((M.el t.1).ccurv t.2))).foldlM (putCurve nr e) M0 = .ok M' ∧ M' = stage e M 0 := by
    have hfin : ∃ M' : HexaData F64, ((curvedEdges M).map fun t =>
        recE e t.1 t.2 ((M.el t.1).curv t.2) (encodeT ((M.el t.1).ccurv t.2))).foldlM (putCurve nr e) M0 = .ok M' ∧
        M' = { M0 with elem := M'.elem } ∧ M'.elem.length = M.nel ∧
        ∀ i < M.nel, M'.el i = { M0.el i with
          curv := fun a j => if (i, a) ∈ curvedEdges M ∧ j < 5 then (M.el i).curv a j else (M0.el i).curv a j
          ccurv := fun a => if (i, a) ∈ curvedEdges M then (M.el i).ccurv a else (M0.el i).ccurv a } := by
      rcases hcc with rfl | hnil
      · obtain ⟨M', h1, h2, h3, h4⟩ := foldCurves nr (fun t => (M.el t.1).curv t.2) (fun t => (M.el t.1).ccurv t.2) (curvedEdges M) M0 (by
          rintro ⟨i, k⟩ ht
          obtain ⟨t1, t2, t3⟩ := (mem_curvedEdges _ _ _).mp ht
          rw [h.len] at t1
          rw [hl0]
          exact ⟨t1, by dsimp only; omega, t2, (h.curv i t1 k t2).resolve_left t3⟩)
        rw [hl0] at h3 h4
        exact ⟨M', h1, h2, h3, h4⟩
      · rw [hnil]
        exact ⟨M0, rfl, rfl, hl0, fun i _ => by simp⟩
    obtain ⟨M', h1, h2, h3, h4⟩ := hfin
    refine ⟨M', h1, hexa_eq M' _ M0 h2 ?_ (by rw [h3, stage_len]) ?_⟩
    · rw [← hM0]
      unfold stage re2Image HexaData.new
      simp only [Int.toNat_natCast, curvedEdges_count]
      rfl
    · intro i hi
      rw [h3] at hi
      rw [h4 i hi, he0 i hi, stage_el e M 0 i hi]
      exact curves_elem M h.len i hi
  obtain ⟨M', hf, rfl⟩ := hfold
  rw [hf]
  simp only
  rw [List.range_eq_range']
  refine fields_read nr e M h hs hcb M.nbc 0 (by omega) _ ?_
  have : ∀ k b, k ≤ ((List.range' b k).flatMap (fieldE e M)).length := by
    intro k
    induction k with
    | zero => intro b; omega
    | succ k ih =>
      intro b
      rw [List.range'_succ, List.flatMap_cons, List.length_append]
      have h1 : 8 ≤ (fieldE e M b).length := section_length _ _ _
      have := ih (b + 1)
      omega
  have := this M.nbc 0
  omega

end Pymech
