import Verif.Lemmas.ReaFile

/-!
# Reading single lines of a `.rea` file
-/

namespace Pymech
open Spec

theorem narrow_length (p : Nat) (x : F64) (h : Narrow x) : (fmtE 'e' p x).length ≤ p + 7 := (fmtE_length p x).2 h

/-! ### Coordinates -/

theorem floatWord_of (l : Text) (ws : List Text) (k : Nat) (x : F64) (h : splitU l = ws) (hk : ws[k]? = some (fmtE 'e' 6 x)) :
    floatWord l k = .ok (printed 6 x) := by
  unfold floatWord wordAt
  rw [h, hk]
  simp only [bind, Except.bind]
  rw [pyFloat_fmtE 'e' (Or.inr rfl) 6 (by norm_num)]
  rfl

theorem e14_blank (x : F64) (h : Narrow x) : e14 x = ' ' :: rjust 13 (fmtE 'e' 6 x) := rjust_blank 13 _ (narrow_length 6 x h)

theorem splitU_quad (x0 x1 x2 x3 : F64) (h1 : Narrow x1) (h2 : Narrow x2) (h3 : Narrow x3) :
    splitU (lineT (e14 x0 ++ e14 x1 ++ e14 x2 ++ e14 x3)) = [fmtE 'e' 6 x0, fmtE 'e' 6 x1, fmtE 'e' 6 x2, fmtE 'e' 6 x3] := by
  rw [splitU_line, e14_blank x1 h1, e14_blank x2 h2, e14_blank x3 h3]
  simp only [List.append_assoc, List.cons_append]
  rw [splitU_append _ _ (by decide), splitU_append _ _ (by decide), splitU_append _ _ (by decide)]
  unfold e14
  rw [splitU_rjust _ _ (noBlank_fmtE _ _) (fmtE_ne_nil _ _), splitU_rjust _ _ (noBlank_fmtE _ _) (fmtE_ne_nil _ _),
    splitU_rjust _ _ (noBlank_fmtE _ _) (fmtE_ne_nil _ _), splitU_rjust _ _ (noBlank_fmtE _ _) (fmtE_ne_nil _ _)]
  rfl

/-- The four numbers of a line of coordinates. -/
def quadV (a : Arr F64) (d z c : Nat) : F64 :=
  if c = 0 then printed 6 (a.dat d z 0 0) else if c = 1 then printed 6 (a.dat d z 0 (a.lx - 1))
  else if c = 2 then printed 6 (a.dat d z (a.ly - 1) (a.lx - 1)) else printed 6 (a.dat d z (a.ly - 1) 0)

theorem readQuad_ok (a : Arr F64) (j d z : Nat) (hj : j < 3) (h1 : Narrow (a.dat d z 0 (a.lx - 1)))
    (h2 : Narrow (a.dat d z (a.ly - 1) (a.lx - 1))) (h3 : Narrow (a.dat d z (a.ly - 1) 0)) :
    readQuad j (lineT (quadT a d z)) = .ok (quadV a d z) := by
  have hs := splitU_quad (a.dat d z 0 0) _ _ _ h1 h2 h3
  unfold readQuad quadT
  rw [floatWord_of _ _ 0 _ hs rfl, floatWord_of _ _ 1 _ hs rfl, floatWord_of _ _ 2 _ hs rfl, floatWord_of _ _ 3 _ hs rfl]
  simp only [bind, Except.bind]
  rw [if_neg (by omega)]
  rfl

theorem quadV_vertex (a : Arr F64) (d z y x : Nat) (hy : y < 2) (hx : x < 2) :
    quadV a d (endOf z a.lz) (vertNo y x) = printed 6 (vertex a d z y x) := by
  unfold quadV vertex vertNo endOf
  have h1 : y = 0 ∨ y = 1 := by omega
  have h2 : x = 0 ∨ x = 1 := by omega
  rcases h1 with rfl | rfl <;> rcases h2 with rfl | rfl <;> simp

/-- The lines of an element in the order of the reader. -/
theorem reaGeo_lines (nd i : Nat) (hnd : nd = 2 ∨ nd = 3) (a : Arr F64) :
    ∃ t, reaGeo nd i a = t :: (List.range (geoLines nd)).map fun k => quadT a (k % nd) (endOf (k / nd) a.lz) := by
  refine ⟨"           ELEMENT ".toList ++ rjust 10 (decI (i + 1 : Nat)) ++ " [  1a]    GROUP 1".toList, ?_⟩
  rcases hnd with rfl | rfl <;> rfl

theorem reaGeo_length (nd i : Nat) (hnd : nd = 2 ∨ nd = 3) (a : Arr F64) : (reaGeo nd i a).length = 1 + geoLines nd := by
  rcases hnd with rfl | rfl <;> rfl

/-- The coordinates read. -/
def readArr (nd : Nat) (a : Arr F64) : Arr F64 :=
  ⟨3, nd - 1, 2, 2, fun d z y x => if d < nd ∧ z < nd - 1 ∧ y < 2 ∧ x < 2 then printed 6 (vertex a d z y x) else 0⟩

theorem readPos_ok (nd i : Nat) (hnd : nd = 2 ∨ nd = 3) (a : Arr F64)
    (hn : ∀ d < nd, ∀ z < nd - 1, ∀ y < 2, ∀ x < 2, Narrow (vertex a d z y x)) (ls : List Text)
    (hls : ∀ k < 1 + geoLines nd, ls[k]? = ((reaGeo nd i a).map lineT)[k]?) : readPos nd ls = .ok (readArr nd a) := by
  obtain ⟨t, ht⟩ := reaGeo_lines nd i hnd a
  have hg : geoLines nd = (nd - 1) * nd := rfl
  have hndp : 0 < nd := by omega
  unfold readPos
  rw [mapM_eq_ok _ (fun k => quadV a (k % nd) (endOf (k / nd) a.lz))]
  · simp only [bind, Except.bind, pure, Except.pure]
    unfold readArr
    congr 2
    funext d z y x
    by_cases hc : d < nd ∧ z < nd - 1 ∧ y < 2 ∧ x < 2
    · rw [if_pos hc, if_pos hc]
      obtain ⟨c1, c2, c3, c4⟩ := hc
      have hk : z * nd + d < (nd - 1) * nd := row_lt c2 c1
      rw [List.getD_eq_getElem?_getD, List.getElem?_map, List.getElem?_range (by rw [hg]; exact hk)]
      simp only [Option.map_some, Option.getD_some]
      have e1 : (z * nd + d) % nd = d := by rw [Nat.mul_comm, Nat.mul_add_mod, Nat.mod_eq_of_lt c1]
      have e2 : (z * nd + d) / nd = z := by
        rw [Nat.mul_comm, Nat.mul_add_div hndp, Nat.div_eq_of_lt c1, Nat.add_zero]
      rw [e1, e2, quadV_vertex _ _ _ _ _ c3 c4]
    · rw [if_neg hc, if_neg hc]
  · intro k hk
    rw [List.mem_range] at hk
    have hd : k % nd < nd := Nat.mod_lt _ hndp
    have hz : k / nd < nd - 1 := Nat.div_lt_of_lt_mul (by rw [hg, Nat.mul_comm] at hk; exact hk)
    rw [List.getD_eq_getElem?_getD, hls _ (by omega), ht, List.map_cons, Nat.add_comm 1 k, List.getElem?_cons_succ, List.getElem?_map,
      List.getElem?_map, List.getElem?_range hk]
    simp only [Option.map_some, Option.getD_some]
    have hv := hn (k % nd) hd (k / nd) hz
    refine readQuad_ok a _ _ _ (by omega) ?_ ?_ ?_
    · exact hv 0 (by omega) 1 (by omega)
    · exact hv 1 (by omega) 1 (by omega)
    · exact hv 1 (by omega) 0 (by omega)

/-! ### Curved sides -/

theorem decN_le {k : Nat} (n m : Nat) (h : m < 10 ^ (k + 1)) (hn : n ≤ m) : (decI (n : Nat)).length ≤ k + 1 := by
  rw [decI_nat]
  exact decN_length_le k n (by omega)

theorem e14_length (x : F64) : (e14 x).length = 14 := rjust_length 14 _ (fmtE_length 6 x).1

theorem colE14 (a l : Text) (i j : Nat) (x : F64) (hi : i = a.length) (hj : j = i + 14) :
    colFloat (a ++ (e14 x ++ l)) i j = .ok (printed 6 x) := colFloat_fmt a l 14 i j 6 (by norm_num) x (fmtE_length 6 x).1 hi hj

theorem colE18 (a l : Text) (i j : Nat) (x : F64) (h : Narrow x) (hi : i = a.length) (hj : j = i + 18) :
    colFloat (a ++ (e18 x ++ l)) i j = .ok (printed 11 x) := colFloat_fmt a l 18 i j 11 (by norm_num) x (narrow_length 11 x h) hi hj

/-- The five parameters in columns of 14 characters. -/
theorem cols5 (a l : Text) (x0 x1 x2 x3 x4 : F64) (s : Nat) (hs : s = a.length) :
    colFloat (a ++ e14 x0 ++ e14 x1 ++ e14 x2 ++ e14 x3 ++ e14 x4 ++ l) s (s + 14) = .ok (printed 6 x0) ∧
    colFloat (a ++ e14 x0 ++ e14 x1 ++ e14 x2 ++ e14 x3 ++ e14 x4 ++ l) (s + 14) (s + 28) = .ok (printed 6 x1) ∧
    colFloat (a ++ e14 x0 ++ e14 x1 ++ e14 x2 ++ e14 x3 ++ e14 x4 ++ l) (s + 28) (s + 42) = .ok (printed 6 x2) ∧
    colFloat (a ++ e14 x0 ++ e14 x1 ++ e14 x2 ++ e14 x3 ++ e14 x4 ++ l) (s + 42) (s + 56) = .ok (printed 6 x3) ∧
    colFloat (a ++ e14 x0 ++ e14 x1 ++ e14 x2 ++ e14 x3 ++ e14 x4 ++ l) (s + 56) (s + 70) = .ok (printed 6 x4) ∧
    ∀ n, cols (a ++ e14 x0 ++ e14 x1 ++ e14 x2 ++ e14 x3 ++ e14 x4 ++ l) (s + 70) (s + 70 + n) = l.take n := by
  have l0 := e14_length x0
  have l1 := e14_length x1
  have l2 := e14_length x2
  have l3 := e14_length x3
  have l4 := e14_length x4
  refine ⟨?_, ?_, ?_, ?_, ?_, ?_⟩
  · have h := colE14 a (e14 x1 ++ (e14 x2 ++ (e14 x3 ++ (e14 x4 ++ l)))) s (s + 14) x0 hs rfl
    simpa only [List.append_assoc] using h
  · have h := colE14 (a ++ e14 x0) (e14 x2 ++ (e14 x3 ++ (e14 x4 ++ l))) (s + 14) (s + 28) x1 (by simp only [List.length_append]; omega) (by omega)
    simpa only [List.append_assoc] using h
  · have h := colE14 (a ++ e14 x0 ++ e14 x1) (e14 x3 ++ (e14 x4 ++ l)) (s + 28) (s + 42) x2 (by simp only [List.length_append]; omega) (by omega)
    simpa only [List.append_assoc] using h
  · have h := colE14 (a ++ e14 x0 ++ e14 x1 ++ e14 x2) (e14 x4 ++ l) (s + 42) (s + 56) x3 (by simp only [List.length_append]; omega) (by omega)
    simpa only [List.append_assoc] using h
  · have h := colE14 (a ++ e14 x0 ++ e14 x1 ++ e14 x2 ++ e14 x3) l (s + 56) (s + 70) x4 (by simp only [List.length_append]; omega) (by omega)
    simpa only [List.append_assoc] using h
  · intro n
    unfold cols
    rw [List.drop_left' (by simp only [List.length_append]; omega), Nat.add_sub_cancel_left]

/-- The five parameters in columns of 18 characters. -/
theorem cols5w (a l : Text) (x0 x1 x2 x3 x4 : F64) (s : Nat) (hs : s = a.length) (n0 : Narrow x0) (n1 : Narrow x1) (n2 : Narrow x2)
    (n3 : Narrow x3) (n4 : Narrow x4) :
    colFloat (a ++ e18 x0 ++ e18 x1 ++ e18 x2 ++ e18 x3 ++ e18 x4 ++ l) s (s + 18) = .ok (printed 11 x0) ∧
    colFloat (a ++ e18 x0 ++ e18 x1 ++ e18 x2 ++ e18 x3 ++ e18 x4 ++ l) (s + 18) (s + 36) = .ok (printed 11 x1) ∧
    colFloat (a ++ e18 x0 ++ e18 x1 ++ e18 x2 ++ e18 x3 ++ e18 x4 ++ l) (s + 36) (s + 54) = .ok (printed 11 x2) ∧
    colFloat (a ++ e18 x0 ++ e18 x1 ++ e18 x2 ++ e18 x3 ++ e18 x4 ++ l) (s + 54) (s + 72) = .ok (printed 11 x3) ∧
    colFloat (a ++ e18 x0 ++ e18 x1 ++ e18 x2 ++ e18 x3 ++ e18 x4 ++ l) (s + 72) (s + 90) = .ok (printed 11 x4) := by
  have e (x : F64) (h : Narrow x) : (e18 x).length = 18 := rjust_length 18 _ (narrow_length 11 x h)
  have l0 := e x0 n0
  have l1 := e x1 n1
  have l2 := e x2 n2
  have l3 := e x3 n3
  have l4 := e x4 n4
  refine ⟨?_, ?_, ?_, ?_, ?_⟩
  · have h := colE18 a (e18 x1 ++ (e18 x2 ++ (e18 x3 ++ (e18 x4 ++ l)))) s (s + 18) x0 n0 hs rfl
    simpa only [List.append_assoc] using h
  · have h := colE18 (a ++ e18 x0) (e18 x2 ++ (e18 x3 ++ (e18 x4 ++ l))) (s + 18) (s + 36) x1 n1 (by simp only [List.length_append]; omega) (by omega)
    simpa only [List.append_assoc] using h
  · have h := colE18 (a ++ e18 x0 ++ e18 x1) (e18 x3 ++ (e18 x4 ++ l)) (s + 36) (s + 54) x2 n2 (by simp only [List.length_append]; omega) (by omega)
    simpa only [List.append_assoc] using h
  · have h := colE18 (a ++ e18 x0 ++ e18 x1 ++ e18 x2) (e18 x4 ++ l) (s + 54) (s + 72) x3 n3 (by simp only [List.length_append]; omega) (by omega)
    simpa only [List.append_assoc] using h
  · have h := colE18 (a ++ e18 x0 ++ e18 x1 ++ e18 x2 ++ e18 x3) l (s + 72) (s + 90) x4 n4 (by simp only [List.length_append]; omega) (by omega)
    simpa only [List.append_assoc] using h

theorem label_noBlank {n : Nat} {t : Name} (h : Label n t) : NoBlank t := fun c hc => by rw [isSpaceU_eq]; exact (h.2 c hc).2.1

/-- The two numbers at the start of a line for a curved side. -/
theorem curve_nums (nel i k : Nat) (hi : i < nel) (hs : nel < 10 ^ 10) (hk : k < 12) (l : Text) :
    colInt ((if nel < 10 ^ 3 then rjust 3 (decI (k + 1 : Nat)) ++ rjust 3 (decI (i + 1 : Nat))
      else if nel < 10 ^ 6 then rjust 2 (decI (k + 1 : Nat)) ++ rjust 6 (decI (i + 1 : Nat))
      else rjust 2 (decI (k + 1 : Nat)) ++ rjust 10 (decI (i + 1 : Nat))) ++ l) 0 (curveCols nel).1 = .ok ((k + 1 : Nat) : Int) ∧
    colInt ((if nel < 10 ^ 3 then rjust 3 (decI (k + 1 : Nat)) ++ rjust 3 (decI (i + 1 : Nat))
      else if nel < 10 ^ 6 then rjust 2 (decI (k + 1 : Nat)) ++ rjust 6 (decI (i + 1 : Nat))
      else rjust 2 (decI (k + 1 : Nat)) ++ rjust 10 (decI (i + 1 : Nat))) ++ l) (curveCols nel).1 (curveCols nel).2 = .ok ((i + 1 : Nat) : Int) ∧
    ((if nel < 10 ^ 3 then rjust 3 (decI (k + 1 : Nat)) ++ rjust 3 (decI (i + 1 : Nat))
      else if nel < 10 ^ 6 then rjust 2 (decI (k + 1 : Nat)) ++ rjust 6 (decI (i + 1 : Nat))
      else rjust 2 (decI (k + 1 : Nat)) ++ rjust 10 (decI (i + 1 : Nat))) : Text).length = (curveCols nel).2 := by
  have hk2 : (decI (k + 1 : Nat)).length ≤ 2 := decN_le (k := 1) (k + 1) 12 (by norm_num) (by omega)
  have key : ∀ a b : Nat, 2 ≤ a → (decI (i + 1 : Nat)).length ≤ b →
      colInt (rjust a (decI (k + 1 : Nat)) ++ rjust b (decI (i + 1 : Nat)) ++ l) 0 a = .ok ((k + 1 : Nat) : Int) ∧
      colInt (rjust a (decI (k + 1 : Nat)) ++ rjust b (decI (i + 1 : Nat)) ++ l) a (a + b) = .ok ((i + 1 : Nat) : Int) ∧
      (rjust a (decI (k + 1 : Nat)) ++ rjust b (decI (i + 1 : Nat))).length = a + b := by
    intro a b ha hb
    have la := rjust_length a (decI (k + 1 : Nat)) (by omega)
    have lb := rjust_length b (decI (i + 1 : Nat)) hb
    refine ⟨?_, ?_, by rw [List.length_append, la, lb]⟩
    · have h := colInt_rjust [] (rjust b (decI (i + 1 : Nat)) ++ l) a 0 a ((k + 1 : Nat) : Int) (by omega) rfl (by omega)
      simpa only [List.append_assoc, List.nil_append] using h
    · have h := colInt_rjust (rjust a (decI (k + 1 : Nat))) l b a (a + b) ((i + 1 : Nat) : Int) hb la.symm rfl
      simpa only [List.append_assoc] using h
  unfold curveCols
  by_cases h3 : nel < 10 ^ 3
  · simp only [if_pos h3]
    exact key 3 3 (by omega) (decN_le (k := 2) (i + 1) 999 (by norm_num) (by omega))
  · by_cases h6 : nel < 10 ^ 6
    · simp only [if_neg h3, if_pos h6]
      exact key 2 6 (by omega) (decN_le (k := 5) (i + 1) 999999 (by norm_num) (by omega))
    · simp only [if_neg h3, if_neg h6]
      exact key 2 10 (by omega) (decN_le (k := 9) (i + 1) 9999999999 (by norm_num) (by omega))

theorem putReaCurve_ok (M : HexaData F64) (nel i k : Nat) (p : Nat → F64) (t : Name) (hi : i < nel) (hs : nel < 10 ^ 10) (hk : k < 12)
    (hl : M.elem.length = nel) (ht : Label 3 t) (hne : t ≠ []) :
    putReaCurve nel M (lineT (reaCurve nel i k p t)) =
      .ok { M with elem := M.elem.modify i fun el => el.setCurve k (fun j => printed 6 (p j)) t } := by
  unfold lineT reaCurve
  rw [List.append_assoc _ (rjust 2 t)]
  obtain ⟨c1, c2, c3⟩ := curve_nums nel i k hi hs hk (e14 (p 0) ++ e14 (p 1) ++ e14 (p 2) ++ e14 (p 3) ++ e14 (p 4) ++ (rjust 2 t ++ ['\n']))
  generalize (if nel < 10 ^ 3 then rjust 3 (decI (k + 1 : Nat)) ++ rjust 3 (decI (i + 1 : Nat))
      else if nel < 10 ^ 6 then rjust 2 (decI (k + 1 : Nat)) ++ rjust 6 (decI (i + 1 : Nat))
      else rjust 2 (decI (k + 1 : Nat)) ++ rjust 10 (decI (i + 1 : Nat))) = a at *
  obtain ⟨f0, f1, f2, f3, f4, f5⟩ := cols5 a (rjust 2 t ++ ['\n']) (p 0) (p 1) (p 2) (p 3) (p 4) _ c3.symm
  simp only [← List.append_assoc] at c1 c2 f0 f1 f2 f3 f4 f5 ⊢
  unfold putReaCurve
  simp only [c1, c2, f0, f1, f2, f3, f4, bind, Except.bind]
  rw [pyIndex_natCast _ _ (by rw [hl]; exact hi)]
  simp only
  rw [pyIndex_natCast _ _ hk]
  simp only
  have hw : wordAt ((rjust 2 t ++ ['\n']).take 3) 0 = .ok t := by
    have hsp : splitU ((rjust 2 t ++ ['\n']).take 3) = [t] := by
      rcases Nat.lt_or_ge t.length 3 with h | h
      · rw [List.take_of_length_le (by rw [List.length_append, rjust_length _ _ (by omega)]; simp)]
        have := splitU_word 2 t (label_noBlank ht) hne '\n' (by decide) []
        simpa [splitU_nil] using this
      · have h3 : t.length = 3 := by have := ht.1; omega
        have : rjust 2 t = t := by
          unfold rjust
          rw [h3]
          rfl
        rw [this, List.take_left' h3]
        exact splitU_single t (label_noBlank ht) hne
    unfold wordAt
    rw [hsp]
    rfl
  have hw' : cols (a ++ e14 (p 0) ++ e14 (p 1) ++ e14 (p 2) ++ e14 (p 3) ++ e14 (p 4) ++ rjust 2 t ++ ['\n']) ((curveCols nel).2 + 70)
      ((curveCols nel).2 + 73) = (rjust 2 t ++ ['\n']).take 3 := f5 3
  rw [hw', hw]
  simp only [pure, Except.pure]
  congr 2
  apply congrArg (M.elem.modify i)
  funext el
  unfold Elem.setCurve
  congr 1
  funext e j
  by_cases hj : e = k ∧ j < 5
  · rw [if_pos hj, if_pos hj]
    have : j = 0 ∨ j = 1 ∨ j = 2 ∨ j = 3 ∨ j = 4 := by omega
    rcases this with rfl | rfl | rfl | rfl | rfl <;> rfl
  · rw [if_neg hj, if_neg hj]

/-! ### Boundary conditions -/

theorem decI_len (k : Nat) (i : Int) (h1 : -(10 ^ k : Nat) < i) (h2 : i < (10 ^ (k + 1) : Nat)) : (decI i).length ≤ k + 1 := by
  unfold decI
  split
  · rw [List.length_cons]
    cases k with
    | zero => omega
    | succ k =>
      have := decN_length_le k i.natAbs (by omega)
      omega
  · exact decN_length_le k i.natAbs (by omega)

theorem npU3_label (t : Name) (h : Label 2 t) : npU3 t = t :=
  npU3_name t ⟨by have := h.1; omega, fun c hc => (h.2 c hc).1, fun c hc => by
    have := h.2 c (List.mem_of_getLast? hc)
    exact ⟨this.2.1, this.2.2⟩⟩

/-- The record read from a line. -/
def bcV (nel i f : Nat) (r : BC F64) : BC F64 :=
  if r.typ = nE ∧ r.p3.mag = 0 then BC.zero
  else
    let p := bcDigits nel
    ⟨r.typ, if 10 ^ 3 ≤ nel ∧ nel < 10 ^ 6 then (i : Int) + 1 else r.own, if 10 ^ 3 ≤ nel ∧ nel < 10 ^ 6 then (f : Int) + 1 else r.ownFace,
      printed p r.p3, printed p r.p4, printed p r.p5, printed p r.p6, printed p r.p7⟩

theorem readBC_ok (nel i f : Nat) (hf : f < 6) (r : BC F64) (ht : Label 2 r.typ) (hc : FitsColumns nel r) :
    readBC nel i f (lineT (reaBC nel r)) = .ok (bcV nel i f r) := by
  have hname : ∀ l : Text, npU3 (stripT (cols ([' '] ++ ljust 2 r.typ ++ l) 1 3)) = r.typ := by
    intro l
    rw [List.append_assoc, cols_at [' '] (ljust 2 r.typ) l 1 3 rfl (by rw [ljust_length _ _ ht.1]; rfl), stripT_ljust _ _ (label_noBlank ht),
      npU3_label _ ht]
  have hp : ([' '] ++ ljust 2 r.typ ++ [' ']).length = 4 := by
    rw [List.length_append, List.length_append, ljust_length _ _ ht.1]
    rfl
  have hfin : ∀ (p : Nat) (own face : Int), 0 < p → p = bcDigits nel → own = (if 10 ^ 3 ≤ nel ∧ nel < 10 ^ 6 then (i : Int) + 1 else r.own) →
      face = (if 10 ^ 3 ≤ nel ∧ nel < 10 ^ 6 then (f : Int) + 1 else r.ownFace) →
      (if r.typ = nE ∧ (printed p r.p3).mag = 0 then (.ok BC.zero : Py (BC F64)) else
        .ok ⟨r.typ, own, face, printed p r.p3, printed p r.p4, printed p r.p5, printed p r.p6, printed p r.p7⟩) = .ok (bcV nel i f r) := by
    rintro p own face h0 rfl rfl rfl
    unfold bcV
    have hz := printed_zero _ h0 r.p3
    by_cases hc : r.typ = nE ∧ r.p3.mag = 0
    · rw [if_pos hc, if_pos ⟨hc.1, hz.mpr hc.2⟩]
    · rw [if_neg hc, if_neg fun h => hc ⟨h.1, hz.mp h.2⟩]
  unfold readBC
  rw [if_neg (by omega)]
  rcases Nat.lt_or_ge nel (10 ^ 3) with h3 | h3
  · have h6 : nel < 10 ^ 6 := lt_trans h3 (by norm_num)
    obtain ⟨o1, o2, o3, o4⟩ := hc.1 h3
    have l1 : (decI r.own).length ≤ 3 := decI_len 2 _ (by push_cast; omega) (by push_cast; omega)
    have l2 : (decI r.ownFace).length ≤ 3 := decI_len 2 _ (by push_cast; omega) (by push_cast; omega)
    have e : lineT (reaBC nel r) = ([' '] ++ ljust 2 r.typ ++ [' ']) ++ rjust 3 (decI r.own) ++ rjust 3 (decI r.ownFace) ++
        e14 r.p3 ++ e14 r.p4 ++ e14 r.p5 ++ e14 r.p6 ++ e14 r.p7 ++ ['\n'] := by
      unfold lineT reaBC
      rw [if_pos h3]
      simp only [List.append_assoc]
    obtain ⟨f0, f1, f2, f3, f4, -⟩ := cols5 (([' '] ++ ljust 2 r.typ ++ [' ']) ++ rjust 3 (decI r.own) ++ rjust 3 (decI r.ownFace)) ['\n']
      r.p3 r.p4 r.p5 r.p6 r.p7 10 (by rw [List.length_append, List.length_append, hp, rjust_length _ _ l1, rjust_length _ _ l2])
    have g1 : colInt (lineT (reaBC nel r)) 4 7 = .ok r.own := by
      rw [e]
      have h := colInt_rjust ([' '] ++ ljust 2 r.typ ++ [' ']) (rjust 3 (decI r.ownFace) ++ (e14 r.p3 ++ (e14 r.p4 ++ (e14 r.p5 ++ (e14 r.p6 ++ (e14 r.p7 ++ ['\n']))))))
        3 4 7 r.own l1 hp.symm rfl
      simpa only [List.append_assoc] using h
    have g2 : colInt (lineT (reaBC nel r)) 7 10 = .ok r.ownFace := by
      rw [e]
      have h := colInt_rjust ([' '] ++ ljust 2 r.typ ++ [' '] ++ rjust 3 (decI r.own)) (e14 r.p3 ++ (e14 r.p4 ++ (e14 r.p5 ++ (e14 r.p6 ++ (e14 r.p7 ++ ['\n'])))))
        3 7 10 r.ownFace l2 (by rw [List.length_append, hp, rjust_length _ _ l1]) rfl
      simpa only [List.append_assoc] using h
    have g0 : npU3 (stripT (cols (lineT (reaBC nel r)) 1 3)) = r.typ := by
      have h := hname ([' '] ++ (rjust 3 (decI r.own) ++ (rjust 3 (decI r.ownFace) ++ (e14 r.p3 ++ (e14 r.p4 ++ (e14 r.p5 ++ (e14 r.p6 ++ (e14 r.p7 ++ ['\n']))))))))
      rw [e]
      simpa only [List.append_assoc] using h
    rw [← e] at f0 f1 f2 f3 f4
    simp only [if_pos h3, if_pos h6, g0, g1, g2, f0, f1, f2, f3, f4, bind, Except.bind, Nat.reduceAdd, Nat.reduceMul, pure, Except.pure]
    exact hfin 6 _ _ (by norm_num) (by unfold bcDigits; rw [if_pos h6]) (by rw [if_neg (by omega)]) (by rw [if_neg (by omega)])
  · rcases Nat.lt_or_ge nel (10 ^ 6) with h6 | h6
    · obtain ⟨o1, o2⟩ := hc.2.1 h3 h6
      have l1 : (decI r.own).length ≤ 6 := decI_len 5 _ (by push_cast; omega) (by push_cast; omega)
      have e : lineT (reaBC nel r) = ([' '] ++ ljust 2 r.typ ++ [' ']) ++ rjust 6 (decI r.own) ++
          e14 r.p3 ++ e14 r.p4 ++ e14 r.p5 ++ e14 r.p6 ++ e14 r.p7 ++ ['\n'] := by
        unfold lineT reaBC
        rw [if_neg (by omega), if_pos h6]
        simp only [List.append_assoc]
      obtain ⟨f0, f1, f2, f3, f4, -⟩ := cols5 (([' '] ++ ljust 2 r.typ ++ [' ']) ++ rjust 6 (decI r.own)) ['\n']
        r.p3 r.p4 r.p5 r.p6 r.p7 10 (by rw [List.length_append, hp, rjust_length _ _ l1])
      have g0 : npU3 (stripT (cols (lineT (reaBC nel r)) 1 3)) = r.typ := by
        have h := hname ([' '] ++ (rjust 6 (decI r.own) ++ (e14 r.p3 ++ (e14 r.p4 ++ (e14 r.p5 ++ (e14 r.p6 ++ (e14 r.p7 ++ ['\n'])))))))
        rw [e]
        simpa only [List.append_assoc] using h
      rw [← e] at f0 f1 f2 f3 f4
      have h3' : ¬ nel < 10 ^ 3 := by omega
      simp only [if_neg h3', if_pos h6, g0, f0, f1, f2, f3, f4, bind, Except.bind, Nat.reduceAdd, Nat.reduceMul, pure, Except.pure]
      exact hfin 6 _ _ (by norm_num) (by unfold bcDigits; rw [if_pos h6]) (by rw [if_pos ⟨h3, h6⟩]) (by rw [if_pos ⟨h3, h6⟩])
    · obtain ⟨o1, o2, o3, o4, n0, n1, n2, n3, n4⟩ := hc.2.2 h6
      have l1 : (decI r.own).length ≤ 11 := decI_len 10 _ (by push_cast; omega) (by push_cast; omega)
      have l2 : (decI r.ownFace).length ≤ 1 := decI_len 0 _ (by push_cast; omega) (by push_cast; omega)
      have l2' : rjust 1 (decI r.ownFace) = decI r.ownFace := by
        have h0 := decI_ne_nil r.ownFace
        have : (decI r.ownFace).length = 1 := by
          have := List.length_pos_iff.mpr h0
          omega
        unfold rjust
        rw [this]
        rfl
      have e : lineT (reaBC nel r) = ([' '] ++ ljust 2 r.typ ++ [' ']) ++ rjust 11 (decI r.own) ++ rjust 1 (decI r.ownFace) ++
          e18 r.p3 ++ e18 r.p4 ++ e18 r.p5 ++ e18 r.p6 ++ e18 r.p7 ++ ['\n'] := by
        unfold lineT reaBC
        rw [if_neg (by omega), if_neg (by omega), l2']
        simp only [List.append_assoc]
      obtain ⟨f0, f1, f2, f3, f4⟩ := cols5w (([' '] ++ ljust 2 r.typ ++ [' ']) ++ rjust 11 (decI r.own) ++ rjust 1 (decI r.ownFace)) ['\n']
        r.p3 r.p4 r.p5 r.p6 r.p7 16 (by rw [List.length_append, List.length_append, hp, rjust_length _ _ l1, rjust_length _ _ l2]) n0 n1 n2 n3 n4
      have g1 : colInt (lineT (reaBC nel r)) 4 15 = .ok r.own := by
        rw [e]
        have h := colInt_rjust ([' '] ++ ljust 2 r.typ ++ [' ']) (rjust 1 (decI r.ownFace) ++ (e18 r.p3 ++ (e18 r.p4 ++ (e18 r.p5 ++ (e18 r.p6 ++ (e18 r.p7 ++ ['\n']))))))
          11 4 15 r.own l1 hp.symm rfl
        simpa only [List.append_assoc] using h
      have g2 : colInt (lineT (reaBC nel r)) 15 16 = .ok r.ownFace := by
        rw [e]
        have h := colInt_rjust ([' '] ++ ljust 2 r.typ ++ [' '] ++ rjust 11 (decI r.own)) (e18 r.p3 ++ (e18 r.p4 ++ (e18 r.p5 ++ (e18 r.p6 ++ (e18 r.p7 ++ ['\n'])))))
          1 15 16 r.ownFace l2 (by rw [List.length_append, hp, rjust_length _ _ l1]) rfl
        simpa only [List.append_assoc] using h
      have g0 : npU3 (stripT (cols (lineT (reaBC nel r)) 1 3)) = r.typ := by
        have h := hname ([' '] ++ (rjust 11 (decI r.own) ++ (rjust 1 (decI r.ownFace) ++ (e18 r.p3 ++ (e18 r.p4 ++ (e18 r.p5 ++ (e18 r.p6 ++ (e18 r.p7 ++ ['\n']))))))))
        rw [e]
        simpa only [List.append_assoc] using h
      rw [← e] at f0 f1 f2 f3 f4
      have h3' : ¬ nel < 10 ^ 3 := by omega
      have h6' : ¬ nel < 10 ^ 6 := by omega
      simp only [if_neg h3', if_neg h6', g0, g1, g2, f0, f1, f2, f3, f4, bind, Except.bind, Nat.reduceAdd, Nat.reduceMul, pure, Except.pure]
      exact hfin 11 _ _ (by norm_num) (by unfold bcDigits; rw [if_neg h6']) (by rw [if_neg (by omega)]) (by rw [if_neg (by omega)])

end Pymech
