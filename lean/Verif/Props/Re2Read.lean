import Verif.Props.Re2Layout
import Verif.Props.Numerals

/-!
# Reading `.re2` files of other programs: C99
-/

set_option autoImplicit false

namespace Pymech

namespace Spec

/-- A record of a curved edge or of a boundary condition: element and edge or face (both from 0 on), parameters and text. -/
structure Record where
  el : Nat
  side : Nat
  par : Nat → F64
  txt : Bytes

/-- The 64 bytes `w` are the record `r`. -/
def Record.In (e : Endian) (r : Record) (w : Bytes) : Prop :=
  w.length = 64 ∧ NumberAt e w 0 (r.el + 1) ∧ NumberAt e w 8 (r.side + 1) ∧ (∀ j < 5, DoubleAt e w (16 + 8 * j) (r.par j)) ∧
    r.txt.length = 8 ∧ BytesAt w 56 r.txt

/-- The bytes `b` are a section with the records `L`, preceded by their number. -/
def SectionIs (e : Endian) (L : List Record) (b : Bytes) : Prop :=
  ∃ c ws, b = c ++ List.flatten ws ∧ c.length = 8 ∧ NumberAt e c 0 L.length ∧ List.Forall₂ (Record.In e) L ws

/-- The 80 bytes of the header: a word, the number of elements, the dimension, anything. -/
def HeaderIs (nel nd : Nat) (h : Bytes) : Prop :=
  h.length = 80 ∧ ∃ (w v v' : Text) (more : List Text), Words blank (decodeB h) (w :: v :: v' :: more) ∧ IntWord v nel ∧ IntWord v' nd

/-- The file `f` contains a mesh of `nel` elements with the coordinates `X` (element, direction, vertex in the order of the file),
the curved edges `C` and the fields `B` of boundary conditions, in byte order `e`. The number before the coordinates of an element may
be anything. -/
def Re2Says (e : Endian) (f : Bytes) (nel nd : Nat) (X : Nat → Nat → Nat → F64) (C : List Record) (B : List (List Record)) : Prop :=
  ∃ h t gs c bs, f = h ++ (t ++ (List.flatten gs ++ (c ++ List.flatten bs))) ∧ HeaderIs nel nd h ∧
    t = encW e 4 (Flt.ofRat (eb := 8) (mb := 23) false (654321 / 100000)).bits ∧
    gs.length = nel ∧ (∀ i g, gs[i]? = some g → g.length = (nd * 2 ^ nd + 1) * 8 ∧
      ∀ d < nd, ∀ v < 2 ^ nd, DoubleAt e g (8 * (1 + 2 ^ nd * d + v)) (X i d v)) ∧
    SectionIs e C c ∧ List.Forall₂ (SectionIs e) B bs

/-- `r` is the last record for side `k` of element `i`. -/
def Latest (L : List Record) (i k : Nat) (r : Record) : Prop :=
  r.el = i ∧ r.side = k ∧ ∃ A A', L = A ++ r :: A' ∧ ∀ s ∈ A', ¬ (s.el = i ∧ s.side = k)

/-- There is no record for side `k` of element `i`. -/
def NoRecord (L : List Record) (i k : Nat) : Prop := ∀ r ∈ L, ¬ (r.el = i ∧ r.side = k)

/-- The text of a curved edge: the type in the first byte, then anything. -/
def CurveText (t : Bytes) (c : Char) : Prop := c.toNat < 128 ∧ ∃ rest, t = encodeT [c] ++ rest

/-- The name of a condition, filled up with white space, or with zero bytes. -/
def NameText (t : Bytes) (n : Name) : Prop :=
  BCName n ∧ ((∃ p : Text, t = encodeT (n ++ p) ∧ ∀ c ∈ p, white c = true) ∨ t = encodeT n ++ List.replicate (8 - n.length) 0)

/-- The name of a condition of up to two characters, filled up with blanks to three bytes (a Fortran `character*3`), then with zero bytes. -/
def MixedText (t : Bytes) (n : Name) : Prop :=
  BCName n ∧ n.length < 3 ∧ t = encodeT n ++ List.replicate (3 - n.length) 32 ++ List.replicate 5 0

/-- The mesh `M` has the contents given. -/
structure Re2Content (e : Endian) (n d : Nat) (X : Nat → Nat → Nat → F64) (C : List Record) (B : List (List Record)) (M : HexaData F64) : Prop where
  ndim : M.ndim = d
  nel : M.nel = n
  len : M.elem.length = n
  ncurv : M.ncurv = C.length
  nbc : M.nbc = max 1 B.length
  rows : ∀ i < n, (M.el i).rows = max 1 B.length
  endian : M.endian = some e
  pos : ∀ i < n, ∀ q < d, ∀ v < 2 ^ d, ∀ iz iy ix, vertexOrder[v]? = some (iz, iy, ix) → (M.el i).pos.dat q iz iy ix = X i q v
  curved : ∀ i < n, ∀ k r c, Latest C i k r → CurveText r.txt c → (M.el i).ccurv k = [c] ∧ ∀ j < 5, (M.el i).curv k j = r.par j
  straight : ∀ i < n, ∀ k, NoRecord C i k → (M.el i).ccurv k = [] ∧ ∀ j, (M.el i).curv k j = 0
  given : ∀ i < n, ∀ b L k r t, B[b]? = some L → Latest L i k r → NameText r.txt t →
    M.bc i b k = ⟨t, (i : Int) + 1, (k : Int) + 1, r.par 0, r.par 1, r.par 2, r.par 3, r.par 4⟩
  none : ∀ i < n, ∀ b k, (∀ L, B[b]? = some L → NoRecord L i k) → M.bc i b k = BC.zero

end Spec

open Spec

/-! ### Records -/

theorem bytesAt_take (b w : Bytes) (o : Nat) (h : BytesAt b o w) (n : Nat) (hn : w.length = n) : (b.drop o).take n = w := by
  obtain ⟨x, y, rfl, rfl⟩ := h
  rw [List.append_assoc, List.drop_left' rfl, List.take_left' hn]

theorem recNum_at (e : Endian) (w : Bytes) (j : Nat) (v : F64) (h : DoubleAt e w (8 * j) v) : recNum e w j = v := by
  unfold recNum
  rw [bytesAt_take _ _ _ h 8 (encW_length _ _ _), decW8]

theorem f64Int_val (v : F64) (n : Nat) (hf : v.Finite) (hv : v.val = n) : f64Int v = .ok (n : Int) := by
  unfold f64Int
  rw [if_pos hf, hv]
  congr 1
  have := f64Int_nat
  unfold trunc
  simp

theorem f64Int_at (e : Endian) (w : Bytes) (j n : Nat) (h : NumberAt e w (8 * j) n) : f64Int (recNum e w j) = .ok (n : Int) := by
  obtain ⟨v, h1, h2, h3⟩ := h
  rw [recNum_at e w j v h1]
  exact f64Int_val v n h2 h3

theorem recRaw_at (e : Endian) (w t : Bytes) (h : BytesAt w 56 t) (ht : t.length = 8) : recRaw e e w = t := by
  unfold recRaw
  rw [bytesAt_take _ _ _ h 8 ht]
  have := encW_decW e t
  rwa [ht] at this

/-- First character of the text of a record. -/
def Spec.Record.first (r : Record) : Name := decodeB (r.txt.take 1)

/-- What the reader makes of the text of a condition. -/
def Spec.Record.name (r : Record) : Name := npU3 (rstripT (decodeB r.txt))

/-- The condition made of a record. -/
def Spec.Record.bc (r : Record) : BC F64 := ⟨r.name, (r.el : Int) + 1, (r.side : Int) + 1, r.par 0, r.par 1, r.par 2, r.par 3, r.par 4⟩

theorem putCurve_at (e : Endian) (M : HexaData F64) (r : Record) (w : Bytes) (h : r.In e w) (hi : r.el < M.elem.length) (hk : r.side < 12)
    (ht : ∀ x ∈ r.txt.take 1, x.toNat < 128) :
    putCurve e e M w = .ok { M with elem := M.elem.modify r.el fun el => el.setCurve r.side r.par r.first } := by
  obtain ⟨h0, h1, h2, h3, h4, h5⟩ := h
  unfold putCurve
  rw [if_neg (by omega), f64Int_at e w 0 _ h1, f64Int_at e w 1 _ h2, recRaw_at e w _ h5 h4]
  unfold decodeAscii
  rw [if_pos ht]
  simp only [bind, Except.bind, pure, Except.pure]
  rw [pyIndex_natCast _ _ hi]
  simp only
  rw [pyIndex_natCast _ _ hk]
  simp only
  congr 2
  apply congrArg (M.elem.modify r.el)
  funext el
  unfold Elem.setCurve Record.first
  congr 1
  funext a j
  by_cases hj : j < 5
  · have : recNum e w (2 + j) = r.par j := recNum_at e w (2 + j) _ (by
      have := h3 j hj
      have h' : 8 * (2 + j) = 16 + 8 * j := by ring
      rwa [h'])
    dsimp only
    rw [this]
  · simp [hj]

theorem putBC_at (e : Endian) (b : Nat) (M : HexaData F64) (r : Record) (w : Bytes) (h : r.In e w) (hi : r.el < M.elem.length) (hk : r.side < 6)
    (ht : ∀ x ∈ r.txt, x.toNat < 128) : putBC e e b M w = .ok (M.modBC r.el b r.side fun _ => r.bc) := by
  obtain ⟨h0, h1, h2, h3, h4, h5⟩ := h
  have hp : ∀ j < 5, recNum e w (2 + j) = r.par j := fun j hj => recNum_at e w (2 + j) _ (by
    have := h3 j hj
    have h' : 8 * (2 + j) = 16 + 8 * j := by ring
    rwa [h'])
  unfold putBC
  rw [if_neg (by omega), f64Int_at e w 0 _ h1, f64Int_at e w 1 _ h2, recRaw_at e w _ h5 h4]
  unfold decodeAscii
  rw [if_pos ht]
  simp only [bind, Except.bind, pure, Except.pure]
  rw [pyIndex_natCast _ _ hi]
  simp only
  rw [pyIndex_natCast _ _ hk]
  simp only
  congr 2
  funext _
  have e0 := hp 0 (by omega)
  have e1 := hp 1 (by omega)
  have e2 := hp 2 (by omega)
  have e3 := hp 3 (by omega)
  have e4 := hp 4 (by omega)
  simp only [Nat.reduceAdd] at e0 e1 e2 e3 e4
  rw [e0, e1, e2, e3, e4]
  unfold Record.bc Record.name
  push_cast
  rfl

/-! ### The last record for a side -/

/-- The last record for side `k` of element `i`. -/
def latest (i k : Nat) : List Record → Option Record
  | [] => none
  | r :: L => match latest i k L with
    | some s => some s
    | none => if r.el = i ∧ r.side = k then some r else none

theorem latest_none (L : List Record) (i k : Nat) (h : NoRecord L i k) : latest i k L = none := by
  induction L with
  | nil => rfl
  | cons r L ih =>
    unfold latest
    rw [ih fun s hs => h s (List.mem_cons_of_mem _ hs)]
    exact if_neg (h r List.mem_cons_self)

theorem latest_some (L : List Record) (i k : Nat) (r : Record) (h : Latest L i k r) : latest i k L = some r := by
  obtain ⟨h1, h2, A, A', rfl, h3⟩ := h
  induction A with
  | nil =>
    rw [List.nil_append]
    unfold latest
    rw [latest_none A' i k h3]
    exact if_pos ⟨h1, h2⟩
  | cons a A ih =>
    rw [List.cons_append]
    unfold latest
    rw [ih]

theorem latest_at (L : List Record) (i k : Nat) (r : Record) (h : latest i k L = some r) : r ∈ L ∧ r.el = i ∧ r.side = k := by
  induction L with
  | nil => cases h
  | cons s L ih =>
    unfold latest at h
    cases hl : latest i k L with
    | some s' =>
      rw [hl] at h
      obtain rfl : s' = r := Option.some.inj h
      obtain ⟨a, b⟩ := ih hl
      exact ⟨List.mem_cons_of_mem _ a, b⟩
    | none =>
      rw [hl] at h
      simp only at h
      split_ifs at h with hs
      obtain rfl : s = r := Option.some.inj h
      exact ⟨List.mem_cons_self, hs⟩

/-! ### Sections -/

theorem foldCurves_at (e : Endian) (L : List Record) (ws : List Bytes) (hL : List.Forall₂ (Record.In e) L ws) (M : HexaData F64)
    (hv : ∀ r ∈ L, r.el < M.elem.length ∧ r.side < 12 ∧ ∀ x ∈ r.txt.take 1, x.toNat < 128) :
    ∃ M' : HexaData F64, ws.foldlM (putCurve e e) M = .ok M' ∧ M' = { M with elem := M'.elem } ∧ M'.elem.length = M.elem.length ∧
      ∀ i < M.elem.length, M'.el i =
        { M.el i with curv := fun k j => match latest i k L with
                        | some r => if j < 5 then r.par j else (M.el i).curv k j
                        | none => (M.el i).curv k j
                      ccurv := fun k => match latest i k L with
                        | some r => r.first
                        | none => (M.el i).ccurv k } := by
  induction hL generalizing M with
  | nil => exact ⟨M, rfl, rfl, rfl, fun i _ => rfl⟩
  | @cons r w L ws hr _ ih =>
    obtain ⟨h1, h2, h3⟩ := hv r List.mem_cons_self
    have hstep := putCurve_at e M r w hr h1 h2 h3
    obtain ⟨M', hf, hM, hl, he⟩ := ih { M with elem := M.elem.modify r.el fun el => el.setCurve r.side r.par r.first } (by
      intro u hu
      simpa using hv u (List.mem_cons_of_mem _ hu))
    rw [List.length_modify] at hl
    refine ⟨M', ?_, by rw [hM], hl, ?_⟩
    · rw [List.foldlM_cons, hstep]
      exact hf
    · intro i hi
      rw [he i (by rw [List.length_modify]; exact hi), el_modify _ _ _ _ hi]
      by_cases hit : i = r.el
      · subst hit
        simp only [if_true, Elem.setCurve]
        congr 1
        · funext k j
          simp only [latest]
          cases latest r.el k L with
          | some s =>
            simp only
            split_ifs with hj hj' <;> first | rfl | omega
          | none =>
            simp only [true_and]
            by_cases hk : k = r.side
            · subst hk
              simp
            · simp [hk, Ne.symm hk]
        · funext k
          simp only [latest]
          cases latest r.el k L with
          | some s => rfl
          | none =>
            simp only [true_and]
            by_cases hk : k = r.side
            · subst hk
              simp
            · simp [hk, Ne.symm hk]
      · rw [if_neg hit]
        dsimp only
        congr 1
        · funext k j
          simp only [latest]
          cases latest i k L with
          | some s => rfl
          | none => simp [Ne.symm hit]
        · funext k
          simp only [latest]
          cases latest i k L with
          | some s => rfl
          | none => simp [Ne.symm hit]

theorem foldBCs_at (e : Endian) (b : Nat) (L : List Record) (ws : List Bytes) (hL : List.Forall₂ (Record.In e) L ws) (M : HexaData F64)
    (hv : ∀ r ∈ L, r.el < M.elem.length ∧ r.side < 6 ∧ ∀ x ∈ r.txt, x.toNat < 128) :
    ∃ M' : HexaData F64, ws.foldlM (putBC e e b) M = .ok M' ∧ M' = { M with elem := M'.elem } ∧ M'.elem.length = M.elem.length ∧
      ∀ i < M.elem.length, M'.el i =
        { M.el i with bcs := fun b' k => match latest i k L with
            | some r => if b' = b then r.bc else (M.el i).bcs b' k
            | none => (M.el i).bcs b' k } := by
  induction hL generalizing M with
  | nil => exact ⟨M, rfl, rfl, rfl, fun i _ => rfl⟩
  | @cons r w L ws hr _ ih =>
    obtain ⟨h1, h2, h3⟩ := hv r List.mem_cons_self
    have hstep := putBC_at e b M r w hr h1 h2 h3
    have hlen := modBC_len M r.el b r.side fun _ => r.bc
    obtain ⟨M', hf, hM, hl, he⟩ := ih (M.modBC r.el b r.side fun _ => r.bc) (by
      intro u hu
      rw [hlen]
      exact hv u (List.mem_cons_of_mem _ hu))
    rw [hlen] at hl
    refine ⟨M', ?_, by rw [hM]; rfl, hl, ?_⟩
    · rw [List.foldlM_cons, hstep]
      exact hf
    · intro i hi
      rw [he i (by rw [hlen]; exact hi), modBC_el' _ _ _ _ _ _ hi]
      by_cases hit : i = r.el
      · subst hit
        simp only [if_true, Elem.modBC]
        congr 1
        funext b' k
        simp only [latest]
        cases latest r.el k L with
        | some s =>
          by_cases hb : b' = b
          · simp [hb]
          · simp [hb]
        | none =>
          by_cases hk : k = r.side
          · subst hk
            by_cases hb : b' = b <;> simp [hb]
          · simp [hk, Ne.symm hk]
      · rw [if_neg hit]
        dsimp only
        congr 1
        funext b' k
        simp only [latest]
        cases latest i k L with
        | some s => rfl
        | none => simp [Ne.symm hit]

theorem words_flatten (k : Nat) (ws : List Bytes) (h : ∀ w ∈ ws, w.length = k) (t : Bytes) : words k ws.length (List.flatten ws ++ t) = ws := by
  have := words_flatMap k id ws h t
  rwa [List.flatMap_id, List.map_id] at this

theorem sectionIs_read (e : Endian) (L : List Record) (b t : Bytes) (h : SectionIs e L b) :
    ∃ ws, List.Forall₂ (Record.In e) L ws ∧ (b ++ t).take 8 ≠ [] ∧ countAt e ((b ++ t).take 8) = .ok (L.length : Int) ∧
      readMany (64 * (L.length : Int)) ((b ++ t).drop 8) = (List.flatten ws, t) ∧ words 64 (L.length : Int).toNat (List.flatten ws) = ws := by
  obtain ⟨c, ws, rfl, hc, ⟨v, hv, hf, hn⟩, hw⟩ := h
  have hcv : c = encW e 8 v.bits := by
    have := bytesAt_take _ _ _ hv 8 (encW_length _ _ _)
    rwa [List.drop_zero, List.take_of_length_le (by omega)] at this
  have h64 : ∀ w ∈ ws, w.length = 64 := by
    intro w hm
    obtain ⟨i, hi, rfl⟩ := List.getElem_of_mem hm
    exact (hw.get (by rw [hw.length_eq]; exact hi) hi).1
  have hl : (List.flatten ws).length = ws.length * 64 := by
    have := flatMap_length_const 64 id ws h64
    rwa [List.flatMap_id] at this
  refine ⟨ws, hw, ?_, ?_, ?_, ?_⟩
  · rw [List.append_assoc, List.take_left' hc]
    rintro rfl
    simp at hc
  · rw [List.append_assoc, List.take_left' hc]
    unfold countAt
    rw [if_neg (by omega), hcv, decW8]
    exact f64Int_val v _ hf hn
  · rw [List.append_assoc, List.drop_left' hc]
    unfold readMany
    rw [if_pos (by omega)]
    have : (64 * (L.length : Int)).toNat = (List.flatten ws).length := by
      rw [hl, hw.length_eq]; omega
    rw [this, List.take_left, List.drop_left]
  · have := words_flatten 64 ws h64 []
    rw [List.append_nil] at this
    rw [Int.toNat_natCast, hw.length_eq]
    exact this

/-- The condition on face `k` of element `i` in field `b`. -/
def fieldBC (B : List (List Record)) (i b k : Nat) : BC F64 :=
  match B[b]? with
  | none => BC.zero
  | some L => match latest i k L with
    | none => BC.zero
    | some r => r.bc

theorem fieldBC_app (D : List (List Record)) (L : List Record) (i b k : Nat) :
    fieldBC (D ++ [L]) i b k = match latest i k L with
      | some r => if b = D.length then r.bc else fieldBC D i b k
      | none => fieldBC D i b k := by
  unfold fieldBC
  rcases Nat.lt_trichotomy b D.length with h | h | h
  · rw [List.getElem?_append_left h]
    cases latest i k L with
    | some r => simp [h.ne]
    | none => rfl
  · subst h
    have h1 : D[D.length]? = none := List.getElem?_eq_none le_rfl
    rw [List.getElem?_append_right le_rfl, h1]
    simp only [Nat.sub_self, List.getElem?_cons_zero, if_true]
    cases latest i k L <;> rfl
  · have h1 : D[b]? = none := List.getElem?_eq_none h.le
    have h2 : (D ++ [L])[b]? = none := List.getElem?_eq_none (by simp; omega)
    rw [h1, h2]
    cases latest i k L with
    | some r => simp [h.ne']
    | none => rfl

theorem fieldBC_out (D : List (List Record)) (i b k : Nat) (h : D.length ≤ b) : fieldBC D i b k = BC.zero := by
  unfold fieldBC
  rw [List.getElem?_eq_none h]

theorem readFields_at (e : Endian) (nel : Nat) (E : Nat → Elem F64) (R : List (List Record)) (rs : List Bytes) (hR : List.Forall₂ (SectionIs e) R rs)
    (D : List (List Record)) (M : HexaData F64) (fuel : Nat) (hfuel : (List.flatten rs).length < fuel)
    (hv : ∀ L ∈ R, ∀ r ∈ L, r.el < nel ∧ r.side < 6 ∧ ∀ x ∈ r.txt, x.toNat < 128)
    (hlen : M.elem.length = nel) (hnbc : M.nbc = max 1 D.length)
    (hE : ∀ i < nel, M.el i = { E i with rows := max 1 D.length, bcs := fieldBC D i }) :
    ∃ M' : HexaData F64, readFields e e fuel D.length (List.flatten rs) M = .ok M' ∧
      M' = { M with nbc := max 1 (D ++ R).length, elem := M'.elem } ∧ M'.elem.length = nel ∧
      ∀ i < nel, M'.el i = { E i with rows := max 1 (D ++ R).length, bcs := fieldBC (D ++ R) i } := by
  induction hR generalizing D M fuel with
  | nil =>
    cases fuel with
    | zero => simp at hfuel
    | succ fuel =>
      refine ⟨M, rfl, ?_, hlen, ?_⟩
      · rw [List.append_nil, ← hnbc]
      · rw [List.append_nil]
        exact hE
  | @cons L b R rs hb _ ih =>
    cases fuel with
    | zero => simp at hfuel
    | succ fuel =>
      obtain ⟨ws, w1, w2, w3, w4, w5⟩ := sectionIs_read e L b (List.flatten rs) hb
      have hb8 : 8 ≤ b.length := by
        obtain ⟨c, ws, rfl, hc, -⟩ := hb
        rw [List.length_append]
        omega
      -- the mesh with the new field
      obtain ⟨M1, hM1, hM1n, hM1l, hM1e⟩ : ∃ M1 : HexaData F64, (if D.length > 0 then M.addField else M) = M1 ∧
          M1 = { M with nbc := max 1 (D.length + 1), elem := M1.elem } ∧ M1.elem.length = nel ∧
          ∀ i < nel, M1.el i = { E i with rows := max 1 (D.length + 1), bcs := fieldBC D i } := by
        by_cases hD : D.length > 0
        · refine ⟨M.addField, if_pos hD, ?_, ?_, ?_⟩
          · unfold HexaData.addField
            rw [hnbc]
            congr 1
            omega
          · simp [HexaData.addField, hlen]
          · intro i hi
            have h1 : M.addField.el i = (M.el i).addRow := el_map M _ _ i (by rw [hlen]; exact hi)
            rw [h1, hE i hi]
            unfold Elem.addRow
            simp only
            congr 1
            · omega
            · funext b' k
              split_ifs with hb'
              · rw [fieldBC_out D i b' k (by omega)]
              · rfl
        · refine ⟨M, if_neg hD, ?_, hlen, ?_⟩
          · have : max 1 (D.length + 1) = M.nbc := by rw [hnbc]; omega
            rw [this]
          · intro i hi
            rw [hE i hi]
            have : max 1 D.length = max 1 (D.length + 1) := by omega
            rw [this]
      obtain ⟨M2, f1, f2, f3, f4⟩ := foldBCs_at e D.length L ws w1 M1 (by
        intro r hr
        rw [hM1l]
        exact hv L List.mem_cons_self r hr)
      rw [hM1l] at f3 f4
      obtain ⟨M', g1, g2, g3, g4⟩ := ih (D ++ [L]) M2 fuel (by
          rw [List.flatten_cons, List.length_append] at hfuel
          omega) (fun L' hL' => hv L' (List.mem_cons_of_mem _ hL')) f3 (by
          rw [f2, hM1n]
          simp) (by
          intro i hi
          rw [f4 i hi, hM1e i hi]
          simp only [List.length_append, List.length_singleton]
          congr 1
          funext b' k
          rw [fieldBC_app])
      refine ⟨M', ?_, ?_, g3, ?_⟩
      · rw [List.flatten_cons]
        unfold readFields
        rw [if_neg w2]
        simp only [bind, Except.bind]
        rw [hM1, w3]
        simp only
        rw [w4]
        simp only
        rw [w5, f1]
        simp only
        rw [List.length_append, List.length_singleton] at g1
        exact g1
      · rw [g2, f2, hM1n]
        simp only [List.append_assoc, List.singleton_append]
      · intro i hi
        rw [g4 i hi]
        simp only [List.append_assoc, List.singleton_append]

/-! ### The file -/

theorem headerIs_words (nel nd : Nat) (h : Bytes) (hh : HeaderIs nel nd h) :
    ∃ w v v' more, splitT (decodeB h) = w :: v :: v' :: more ∧ pyInt v = some (nel : Int) ∧ pyInt v' = some (nd : Int) := by
  obtain ⟨-, w, v, v', more, h1, h2, h3⟩ := hh
  exact ⟨w, v, v', more, splitT_of_words _ _ h1, (C110_int _ _).mpr h2, (C110_int _ _).mpr h3⟩

theorem vertexOrder_vertNo (nd v : Nat) (hnd : nd = 2 ∨ nd = 3) (hv : v < 2 ^ nd) (iz iy ix : Nat) (h : vertexOrder[v]? = some (iz, iy, ix)) :
    iz < nd - 1 ∧ iy < 2 ∧ ix < 2 ∧ v = 4 * iz + vertNo iy ix := by
  have hv8 : v < 8 := by rcases hnd with rfl | rfl <;> omega
  have h4 : nd = 2 → v < 4 := by rintro rfl; exact hv
  interval_cases v <;> simp only [vertexOrder, List.getElem?_cons_zero, List.getElem?_cons_succ, Option.some.injEq, Prod.mk.injEq] at h <;>
    obtain ⟨rfl, rfl, rfl⟩ := h <;> refine ⟨by omega, by omega, by omega, rfl⟩

/-- What `readre2` makes of a file in the native byte order. -/
theorem re2_read (e : Endian) (f : Bytes) (nel nd : Nat) (X : Nat → Nat → Nat → F64) (C : List Record) (B : List (List Record))
    (h : Re2Says e f nel nd X C B) (hnd : nd = 2 ∨ nd = 3)
    (hC : ∀ r ∈ C, r.el < nel ∧ r.side < 12 ∧ ∀ x ∈ r.txt.take 1, x.toNat < 128)
    (hB : ∀ L ∈ B, ∀ r ∈ L, r.el < nel ∧ r.side < 6 ∧ ∀ x ∈ r.txt, x.toNat < 128) :
    ∃ M, readre2 e f = .ok M ∧ M.ndim = nd ∧ M.nel = nel ∧ M.elem.length = nel ∧ M.ncurv = C.length ∧ M.nbc = max 1 B.length ∧ M.endian = some e ∧
      ∀ i < nel, (M.el i).rows = max 1 B.length ∧ (M.el i).bcs = fieldBC B i ∧
        (∀ d < nd, ∀ v < 2 ^ nd, ∀ iz iy ix, vertexOrder[v]? = some (iz, iy, ix) → (M.el i).pos.dat d iz iy ix = X i d v) ∧
        (M.el i).curv = (fun k j => match latest i k C with
          | some r => if j < 5 then r.par j else 0
          | none => 0) ∧
        (M.el i).ccurv = fun k => match latest i k C with
          | some r => r.first
          | none => [] := by
  obtain ⟨hd, t, gs, c, bs, rfl, hhd, rfl, hgl, hgs, hc, hbs⟩ := h
  obtain ⟨w0, v1, v2, more, hw, hv1, hv2⟩ := headerIs_words nel nd hd hhd
  have h80 := hhd.1
  have hglen : (List.flatten gs).length = (nd * 2 ^ nd + 1) * 8 * nel := by
    have := flatMap_length_const ((nd * 2 ^ nd + 1) * 8) id gs (by
      intro g hg
      obtain ⟨i, hi, rfl⟩ := List.getElem_of_mem hg
      exact (hgs i _ (List.getElem?_eq_getElem hi)).1)
    rw [List.flatMap_id, hgl] at this
    rw [this, Nat.mul_comm]
  obtain ⟨ws, w1, -, w3, w4, w5⟩ := sectionIs_read e C c (List.flatten bs) hc
  unfold readre2
  rw [List.take_left' h80, hw, List.drop_left' h80, List.take_left' (encW_length _ _ _)]
  simp only [bind, Except.bind]
  rw [hv1, hv2, tag_written]
  simp only [orValueError]
  rw [if_neg (by omega)]
  simp only [Int.toNat_natCast]
  have hrest : (hd ++ (encW e 4 (Flt.ofRat (eb := 8) (mb := 23) false (654321 / 100000)).bits ++ (List.flatten gs ++ (c ++ List.flatten bs)))).drop 84 =
      List.flatten gs ++ (c ++ List.flatten bs) := by
    rw [← List.append_assoc]
    exact List.drop_left' (by rw [List.length_append, h80, encW_length])
  rw [hrest, if_neg (by rw [List.length_append, hglen]; omega), if_neg (by omega), List.drop_left' hglen, w3]
  simp only
  rw [w4]
  simp only
  rw [w5]
  generalize hM0 : ({ (HexaData.new e nd nel ⟨2, 2, nd - 1, true⟩ ⟨nd, 0, 0, 0, 0⟩ 1 : HexaData F64) with
    ncurv := (Int.toNat (C.length : Int)), wdsz := 8, endian := some e, elem := _ } : HexaData F64) = M0
  have hl0 : M0.elem.length = nel := by rw [← hM0]; simp [HexaData.new]
  have he0 : ∀ i < nel, M0.el i = { (Elem.new 0 0 0 2 2 (nd - 1) 1 : Elem F64) with
      pos := re2Pos e nd ((List.flatten gs ++ (c ++ List.flatten bs)).drop ((nd * 2 ^ nd + 1) * 8 * i)) (Arr.zeros 3 2 2 (nd - 1)) } := by
    intro i hi
    rw [← hM0]
    unfold HexaData.el
    dsimp only
    rw [List.getD_eq_getElem?_getD]
    simp only [HexaData.new, List.getElem?_mapIdx, List.getElem?_replicate, hi, if_true, Option.map_some, Option.getD_some]
    rfl
  obtain ⟨M1, c1, c2, c3, c4⟩ := foldCurves_at e C ws w1 M0 (by rw [hl0]; exact hC)
  rw [hl0] at c3 c4
  rw [c1]
  simp only
  obtain ⟨M', r1, r2, r3, r4⟩ := readFields_at e nel (fun i => M1.el i) B bs hbs [] M1 ((List.flatten bs).length + 1) (Nat.lt_succ_self _) hB c3
    (by rw [c2, ← hM0]; rfl) (by
      intro i hi
      rw [c4 i hi, he0 i hi]
      simp only [Elem.new, List.length_nil]
      rfl)
  rw [List.nil_append] at r2 r4
  refine ⟨M', r1, ?_, ?_, r3, ?_, ?_, ?_, ?_⟩
  · rw [r2, c2, ← hM0]; rfl
  · rw [r2, c2, ← hM0]; rfl
  · rw [r2, c2, ← hM0]; exact Int.toNat_natCast _
  · rw [r2]
  · rw [r2, c2, ← hM0]
  · intro i hi
    rw [r4 i hi]
    simp only
    rw [c4 i hi, he0 i hi]
    refine ⟨trivial, trivial, ?_, rfl, rfl⟩
    intro d hd' v hv iz iy ix ho
    obtain ⟨a1, a2, a3, a4⟩ := vertexOrder_vertNo nd v hnd hv iz iy ix ho
    have hig : i < gs.length := by omega
    obtain ⟨g1, g2⟩ := hgs i _ (List.getElem?_eq_getElem hig)
    simp only [re2Pos]
    rw [if_pos ⟨hd', a1, a2, a3⟩]
    refine recNum_at e _ _ _ ?_
    have hblk : ∃ y, (List.flatten gs ++ (c ++ List.flatten bs)).drop ((nd * 2 ^ nd + 1) * 8 * i) = gs[i] ++ y := by
      have hb := bytesAt_flatMap ((nd * 2 ^ nd + 1) * 8) id gs (by
        intro g hg
        obtain ⟨i, hi, rfl⟩ := List.getElem_of_mem hg
        exact (hgs i _ (List.getElem?_eq_getElem hi)).1) i _ (List.getElem?_eq_getElem hig)
      rw [List.flatMap_id, Nat.mul_comm] at hb
      obtain ⟨x, y, hxy, hx⟩ := hb
      refine ⟨y ++ (c ++ List.flatten bs), ?_⟩
      rw [hxy]
      simp only [id, List.append_assoc]
      exact List.drop_left' hx
    obtain ⟨y, hy⟩ := hblk
    rw [hy]
    have := g2 d hd' v hv
    rw [show 8 * (2 ^ nd * d + 4 * iz + 1 + vertNo iy ix) = 8 * (1 + 2 ^ nd * d + v) by rw [a4]; ring]
    exact bytesAt_app _ _ _ _ this

theorem first_curve (r : Record) (c : Char) (h : CurveText r.txt c) : r.first = [c] := by
  obtain ⟨hc, rest, e⟩ := h
  unfold Record.first
  rw [e]
  have : (encodeT [c] ++ rest).take 1 = encodeT [c] := List.take_left' rfl
  rw [this, decodeB_encodeT]
  simp only [List.mem_singleton, forall_eq]
  omega

theorem decodeB_append (a b : Bytes) : decodeB (a ++ b) = decodeB a ++ decodeB b := List.map_append

theorem decodeB_replicate (n : Nat) (x : UInt8) : decodeB (List.replicate n x) = List.replicate n (Char.ofNat x.toNat) := List.map_replicate

theorem rstripT_last (t : Text) (c : Char) (hc : isSpaceU c = false) : rstripT (t ++ [c]) = t ++ [c] := by
  unfold rstripT
  rw [List.reverse_append, List.reverse_singleton, List.singleton_append, List.dropWhile_cons_of_neg (by rw [hc]; decide)]
  simp

theorem npU3_nul (n : Name) (hn : BCName n) (m : Nat) : npU3 (n ++ List.replicate m (Char.ofNat 0)) = n := by
  unfold npU3
  rw [List.take_append, List.take_of_length_le hn.1, List.take_replicate, List.reverse_append, List.reverse_replicate]
  have : ∀ k, (List.replicate k (Char.ofNat 0) ++ n.reverse).dropWhile (· == Char.ofNat 0) = n.reverse.dropWhile (· == Char.ofNat 0) := by
    intro k
    induction k with
    | zero => rfl
    | succ k ih => rw [List.replicate_succ, List.cons_append, List.dropWhile_cons_of_pos (by decide)]; exact ih
  rw [this]
  have h3 := npU3_name n hn
  unfold npU3 at h3
  rwa [List.take_of_length_le hn.1] at h3

theorem white_lt (c : Char) (h : white c = true) : c.toNat < 128 := by
  unfold white at h
  simp only [List.contains_eq_mem, List.mem_cons, List.not_mem_nil, or_false, decide_eq_true_eq] at h
  omega

theorem name_text (r : Record) (n : Name) (h : NameText r.txt n) : r.name = n := by
  obtain ⟨hn, h⟩ := h
  have hdec : decodeB (encodeT n) = n := decodeB_encodeT n fun c hc => by have := hn.2.1 c hc; omega
  unfold Record.name
  rcases h with ⟨p, h, hp⟩ | h
  · rw [h, encodeT, List.map_append, decodeB_append]
    have hp' : decodeB (encodeT p) = p := decodeB_encodeT p fun c hc => by have := white_lt c (hp c hc); omega
    unfold encodeT at hdec hp'
    rw [hdec, hp', rstripT_pad n hn p hp, npU3_name n hn]
  · rw [h, decodeB_append, hdec, decodeB_replicate]
    have h3 := hn.1
    obtain ⟨m, hm⟩ : ∃ m, 8 - n.length = m + 1 := ⟨7 - n.length, by omega⟩
    have h0 : Char.ofNat (0 : UInt8).toNat = Char.ofNat 0 := by decide
    rw [hm, h0, List.replicate_succ', ← List.append_assoc, rstripT_last _ _ (by decide), List.append_assoc, ← List.replicate_succ',
      npU3_nul n hn]

theorem name_mixed (r : Record) (n : Name) (h : MixedText r.txt n) : r.name = n ++ List.replicate (3 - n.length) ' ' := by
  obtain ⟨hn, h3, h⟩ := h
  have hdec : decodeB (encodeT n) = n := decodeB_encodeT n fun c hc => by have := hn.2.1 c hc; omega
  unfold Record.name
  have h32 : Char.ofNat (32 : UInt8).toNat = ' ' := by decide
  have h0 : Char.ofNat (0 : UInt8).toNat = Char.ofNat 0 := by decide
  rw [h, decodeB_append, decodeB_append, hdec, decodeB_replicate, decodeB_replicate, h32, h0, List.replicate_succ' (n := 4), ← List.append_assoc,
    rstripT_last _ _ (by decide)]
  unfold npU3
  have hl : (n ++ List.replicate (3 - n.length) ' ').length = 3 := by simp; omega
  rw [List.append_assoc, List.take_left' hl]
  obtain ⟨m, hm⟩ : ∃ m, 3 - n.length = m + 1 := ⟨2 - n.length, by omega⟩
  rw [hm, List.replicate_succ', ← List.append_assoc, List.reverse_append, List.reverse_singleton, List.singleton_append,
    List.dropWhile_cons_of_neg (by decide)]
  simp

theorem ascii_name (t : Bytes) (n : Name) (h : NameText t n) : ∀ x ∈ t, x.toNat < 128 := by
  obtain ⟨hn, h⟩ := h
  intro x hx
  have key : x ∈ encodeT n → x.toNat < 128 := by
    intro hx
    obtain ⟨c, hc, rfl⟩ := List.mem_map.mp hx
    have := hn.2.1 c hc
    rw [UInt8.toNat_ofNat']
    omega
  rcases h with ⟨p, rfl, hp⟩ | rfl
  · obtain ⟨c, hc, rfl⟩ := List.mem_map.mp hx
    have : c.toNat < 128 := (List.mem_append.mp hc).elim (hn.2.1 c) fun hc => white_lt c (hp c hc)
    rw [UInt8.toNat_ofNat']
    omega
  rcases List.mem_append.mp hx with hx | hx
  · exact key hx
  · rw [List.eq_of_mem_replicate hx]; decide

theorem ascii_curve (t : Bytes) (c : Char) (h : CurveText t c) : ∀ x ∈ t.take 1, x.toNat < 128 := by
  obtain ⟨hc, rest, rfl⟩ := h
  intro x hx
  have : (encodeT [c] ++ rest).take 1 = encodeT [c] := List.take_left' rfl
  rw [this] at hx
  obtain rfl : x = UInt8.ofNat c.toNat := by simpa [encodeT] using hx
  rw [UInt8.toNat_ofNat']
  omega

/-- `readre2` returns the content of every file in the native byte order: with any number in front of the coordinates, the records in
any order (also those of internal faces), repeated records (the last one counts), any bytes after the type of a curved edge, and names
filled up with blanks or with zero bytes. Missing: names filled up with both, see `C99_false`. -/
theorem C99_partial (e : Endian) (f : Bytes) (nel nd : Nat) (X : Nat → Nat → Nat → F64) (C : List Record) (B : List (List Record))
    (h : Re2Says e f nel nd X C B) (hnd : nd = 2 ∨ nd = 3) (hC : ∀ r ∈ C, r.el < nel ∧ r.side < 12 ∧ ∃ c, CurveText r.txt c)
    (hB : ∀ L ∈ B, ∀ r ∈ L, r.el < nel ∧ r.side < 2 * nd ∧ ∃ n, NameText r.txt n) :
    ∃ M, readre2 e f = .ok M ∧ Re2Content e nel nd X C B M := by
  obtain ⟨M, h1, h2, h3, h4, h5, h6, h7, h8⟩ := re2_read e f nel nd X C B h hnd
    (fun r hr => ⟨(hC r hr).1, (hC r hr).2.1, by
      obtain ⟨c, hc⟩ := (hC r hr).2.2
      exact ascii_curve _ c hc⟩)
    (fun L hL r hr => ⟨(hB L hL r hr).1, by have := (hB L hL r hr).2.1; omega, by
      obtain ⟨n, hn⟩ := (hB L hL r hr).2.2
      exact ascii_name _ n hn⟩)
  refine ⟨M, h1, h2, h3, h4, h5, h6, fun i hi => (h8 i hi).1, h7, fun i hi => (h8 i hi).2.2.1, ?_, ?_, ?_, ?_⟩
  · intro i hi k r c hr hc
    obtain ⟨-, -, -, h9, h10⟩ := h8 i hi
    rw [h9, h10]
    simp only
    rw [latest_some C i k r hr]
    exact ⟨first_curve r c hc, fun j hj => if_pos hj⟩
  · intro i hi k hr
    obtain ⟨-, -, -, h9, h10⟩ := h8 i hi
    rw [h9, h10]
    simp only
    rw [latest_none C i k hr]
    exact ⟨rfl, fun _ => rfl⟩
  · intro i hi b L k r n hL hr hn
    unfold HexaData.bc
    rw [(h8 i hi).2.1]
    unfold fieldBC
    rw [hL]
    simp only
    rw [latest_some L i k r hr]
    simp only [Record.bc]
    rw [name_text r n hn, hr.1, hr.2.1]
  · intro i hi b k hL
    unfold HexaData.bc
    rw [(h8 i hi).2.1]
    unfold fieldBC
    cases hb : B[b]? with
    | none => rfl
    | some L =>
      simp only
      rw [latest_none L i k (hL L hb)]

/-- A name of one or two characters that is filled up with blanks to three and then with zero bytes keeps its blanks: `rstrip()` stops at
the zero bytes, which are only lost on assignment. So in every such file the condition has another name than it should. -/
theorem C99_false (e : Endian) (f : Bytes) (nel nd : Nat) (X : Nat → Nat → Nat → F64) (C : List Record) (B : List (List Record))
    (h : Re2Says e f nel nd X C B) (hnd : nd = 2 ∨ nd = 3) (hC : ∀ r ∈ C, r.el < nel ∧ r.side < 12 ∧ ∃ c, CurveText r.txt c)
    (hB : ∀ L ∈ B, ∀ r ∈ L, r.el < nel ∧ r.side < 2 * nd ∧ ∀ x ∈ r.txt, x.toNat < 128)
    (b : Nat) (L : List Record) (hL : B[b]? = some L) (i k : Nat) (r : Record) (n : Name) (hr : Latest L i k r) (hn : MixedText r.txt n) :
    ∃ M, readre2 e f = .ok M ∧ (M.bc i b k).typ = n ++ List.replicate (3 - n.length) ' ' ∧ (M.bc i b k).typ ≠ n := by
  obtain ⟨M, h1, -, -, -, -, -, -, h8⟩ := re2_read e f nel nd X C B h hnd
    (fun r hr => ⟨(hC r hr).1, (hC r hr).2.1, by
      obtain ⟨c, hc⟩ := (hC r hr).2.2
      exact ascii_curve _ c hc⟩)
    (fun L hL r hr => ⟨(hB L hL r hr).1, by have := (hB L hL r hr).2.1; omega, (hB L hL r hr).2.2⟩)
  have hmem : r ∈ L := by
    obtain ⟨-, -, A, A', rfl, -⟩ := hr
    simp
  have hi : i < nel := by
    rw [← hr.1]
    exact (hB L (List.mem_of_getElem? hL) r hmem).1
  have ht : (M.bc i b k).typ = n ++ List.replicate (3 - n.length) ' ' := by
    unfold HexaData.bc
    rw [(h8 i hi).2.1]
    unfold fieldBC
    rw [hL]
    simp only
    rw [latest_some L i k r hr]
    simp only [Record.bc]
    rw [name_mixed r n hn]
  refine ⟨M, h1, ht, ?_⟩
  rw [ht]
  intro hc
  have := congrArg List.length hc
  have h3 := hn.2.1
  simp only [List.length_append, List.length_replicate] at this
  omega

/-! ### A file -/

theorem recE_in (e : Endian) (r : Record) (hi : r.el + 1 < 2 ^ 53) (hk : r.side + 1 < 2 ^ 53) (ht : r.txt.length = 8) :
    r.In e (recE e r.el r.side r.par r.txt) := by
  obtain ⟨h1, h2, h3, h4⟩ := recE_at e r.el r.side r.par r.txt hi hk
  have h8 : s8 r.txt = r.txt := by
    unfold s8
    rw [List.take_of_length_le ht.le, ht]
    simp
  rw [h8] at h4
  exact ⟨recE_length _ _ _ _ _, h1, h2, h3, ht, h4⟩

theorem section_is (e : Endian) (L : List Record) (hL : L.length < 2 ^ 53)
    (h : ∀ r ∈ L, r.el + 1 < 2 ^ 53 ∧ r.side + 1 < 2 ^ 53 ∧ r.txt.length = 8) :
    SectionIs e L (sectionE e L fun r => recE e r.el r.side r.par r.txt) := by
  refine ⟨encW e 8 (natF64 L.length).bits, L.map fun r => recE e r.el r.side r.par r.txt, ?_, encW_length _ _ _, ?_, ?_⟩
  · unfold sectionE
    rw [List.flatMap_def]
  · exact numberAt_nat e _ _ _ hL ⟨[], [], by simp, rfl⟩
  · rw [List.forall₂_map_right_iff]
    exact List.forall₂_same.mpr fun r hr => recE_in e r (h r hr).1 (h r hr).2.1 (h r hr).2.2

/-- A curved edge whose type is followed by other bytes. -/
def readC : List Record := [⟨0, 2, fun j => natF64 (j + 7), [67, 0, 0, 0, 0, 0, 224, 63]⟩]

/-- Two records for the same face, the second one with zero bytes, and one of an internal face. -/
def readB : List Record :=
  [⟨0, 1, fun j => natF64 j, [87, 32, 32, 32, 32, 32, 32, 32]⟩, ⟨0, 3, fun j => natF64 j, [69, 32, 32, 32, 32, 32, 32, 32]⟩,
    ⟨0, 1, fun j => natF64 (j + 1), [118, 0, 0, 0, 0, 0, 0, 0]⟩]

/-- A condition with blanks and zero bytes. -/
def readMixed : List Record := [⟨0, 1, fun j => natF64 j, [87, 32, 32, 0, 0, 0, 0, 0]⟩]

/-- A file with one element, written by another program. -/
def readFile (e : Endian) (B : List (List Record)) : Bytes :=
  encodeT (ljust 80 "#v003\t 1\r2  1 hdr".toList) ++ (encW e 4 (Flt.ofRat (eb := 8) (mb := 23) false (654321 / 100000)).bits ++
    (List.flatten [((List.range 9).map fun j => natF64 (j + 3)).flatMap fun x : F64 => encW e 8 x.bits] ++
      ((sectionE e readC fun r => recE e r.el r.side r.par r.txt) ++ List.flatten (B.map fun L => sectionE e L fun r => recE e r.el r.side r.par r.txt))))

theorem readFile_says (e : Endian) (B : List (List Record)) (hB : ∀ L ∈ B, L.length < 2 ^ 53 ∧ ∀ r ∈ L, r.el + 1 < 2 ^ 53 ∧ r.side + 1 < 2 ^ 53 ∧ r.txt.length = 8) :
    Re2Says e (readFile e B) 1 2 (fun _ d v => natF64 (4 * d + v + 4)) readC B := by
  refine ⟨_, _, _, _, _, rfl, ?_, rfl, rfl, ?_, ?_, ?_⟩
  · exact ⟨by decide, "#v003".toList, ['1'], ['2'], [['1'], "hdr".toList], (splitT_iff _ _).mp (by decide +kernel),
      (C110_int _ _).mp (by decide), (C110_int _ _).mp (by decide)⟩
  · intro i g hg
    obtain rfl : i = 0 := by
      by_contra h
      have : ([((List.range 9).map fun j => natF64 (j + 3)).flatMap fun x : F64 => encW e 8 x.bits] : List Bytes)[i]? = none :=
        List.getElem?_eq_none (by simp; omega)
      rw [this] at hg
      cases hg
    obtain rfl := Option.some.inj hg
    refine ⟨nums_length e _, fun d hd v hv => ?_⟩
    have := bytesAt_flatMap 8 (fun x : F64 => encW e 8 x.bits) ((List.range 9).map fun j => natF64 (j + 3)) (fun _ _ => encW_length _ _ _)
      (1 + 4 * d + v) (natF64 (4 * d + v + 4)) (by
        rw [List.getElem?_map, List.getElem?_range (by omega)]
        simp only [Option.map_some]
        congr 2
        omega)
    rw [Nat.mul_comm] at this
    exact this
  · exact section_is e readC (by decide) (by decide)
  · rw [List.forall₂_map_right_iff]
    exact List.forall₂_same.mpr fun L hL => section_is e L (hB L hL).1 (hB L hL).2

theorem readC_ok : ∀ r ∈ readC, r.el < 1 ∧ r.side < 12 ∧ ∃ c, CurveText r.txt c := by
  intro r hr
  simp only [readC, List.mem_singleton] at hr
  subst hr
  exact ⟨by decide, by decide, 'C', by decide, [0, 0, 0, 0, 0, 224, 63], rfl⟩

example (e : Endian) : ∃ M, readre2 e (readFile e [readB, []]) = .ok M ∧ M.nbc = 2 ∧ (M.el 0).ccurv 2 = ['C'] ∧
    M.bc 0 0 1 = ⟨['v'], 1, 2, natF64 1, natF64 2, natF64 3, natF64 4, natF64 5⟩ ∧ (M.bc 0 0 3).typ = nE ∧ M.bc 0 1 1 = BC.zero := by
  obtain ⟨M, h, hM⟩ := C99_partial e _ 1 2 _ readC [readB, []] (readFile_says e _ (by decide)) (.inl rfl) readC_ok (by
    intro L hL r hr
    simp only [List.mem_cons, List.not_mem_nil, or_false] at hL
    rcases hL with rfl | rfl
    · simp only [readB, List.mem_cons, List.not_mem_nil, or_false] at hr
      rcases hr with rfl | rfl | rfl
      · exact ⟨by decide, by decide, ['W'], by decide, .inl ⟨List.replicate 7 ' ', by decide, by decide⟩⟩
      · exact ⟨by decide, by decide, nE, by decide, .inl ⟨List.replicate 7 ' ', by decide, by decide⟩⟩
      · exact ⟨by decide, by decide, ['v'], by decide, .inr (by decide)⟩
    · cases hr)
  refine ⟨M, h, hM.nbc, ?_, ?_, ?_, ?_⟩
  · exact (hM.curved 0 (by omega) 2 _ 'C' ⟨rfl, rfl, [], [], rfl, by simp⟩ ⟨by decide, [0, 0, 0, 0, 0, 224, 63], rfl⟩).1
  · exact hM.given 0 (by omega) 0 readB 1 _ ['v'] rfl ⟨rfl, rfl, readB.take 2, [], rfl, by simp⟩ ⟨by decide, .inr (by decide)⟩
  · rw [hM.given 0 (by omega) 0 readB 3 _ nE rfl ⟨rfl, rfl, readB.take 1, readB.drop 2, rfl, by decide⟩ ⟨by decide, .inl ⟨List.replicate 7 ' ', by decide, by decide⟩⟩]
  · exact hM.none 0 (by omega) 1 1 fun L hL r hr => by
      obtain rfl : [] = L := Option.some.inj hL
      cases hr

example (e : Endian) : ∃ M, readre2 e (readFile e [readMixed]) = .ok M ∧ (M.bc 0 0 1).typ = ['W', ' ', ' '] := by
  obtain ⟨M, h, h', -⟩ := C99_false e _ 1 2 _ readC [readMixed] (readFile_says e _ (by decide)) (.inl rfl) readC_ok (by decide) 0 readMixed rfl 0 1 _ ['W']
    ⟨rfl, rfl, [], [], rfl, by simp⟩ ⟨by decide, by decide, by decide⟩
  exact ⟨M, h, h'⟩

end Pymech
