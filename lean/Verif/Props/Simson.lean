import Verif.Lemmas.Simson
import Verif.Lemmas.Float

/-!
# SIMSON files: C28–C31
-/

namespace Pymech

namespace Spec

/-- The values of a function on an `n0 × n1` grid in the order of Fortran: the first index runs fastest. -/
def columns (n0 n1 : Nat) (f : Nat → Nat → F64) : List F64 := (List.range n1).flatMap fun j => (List.range n0).map fun i => f i j

/-- A plane file: the numbers of points, two coordinates and the data, each in a record between two marks of four bytes.
The first mark is the length of the first record. -/
def planeFile (e : Endian) (n0 n1 : Nat) (x y d : Nat → Nat → F64) (mark : Nat → Bytes) : Bytes :=
  encW e 4 8 ++ (encW e 4 n0 ++ (encW e 4 n1 ++ (mark 0 ++ (mark 1 ++ (dbls e (columns n0 n1 x) ++ (mark 2 ++ (mark 3 ++
    (dbls e (columns n0 n1 y) ++ (mark 4 ++ (mark 5 ++ (dbls e (columns n0 n1 d) ++ mark 6)))))))))))

end Spec

open Spec

theorem columns_length (n0 n1 : Nat) (f : Nat → Nat → F64) : (columns n0 n1 f).length = n0 * n1 := by
  unfold columns
  rw [length_flatMap_range n1 n0 _ fun j _ => by simp, Nat.mul_comm]

theorem reshapeF_columns (n0 n1 : Nat) (f : Nat → Nat → F64) (i j : Nat) (hi : i < n0) (hj : j < n1) : reshapeF n0 (columns n0 n1 f) i j = f i j := by
  unfold reshapeF columns
  rw [List.getD_eq_getElem?_getD, getElem?_flatMap_range n1 n0 _ (fun j _ => by simp) j i hj hi, List.getElem?_map, List.getElem?_range hi]
  rfl

theorem i32Bits_nat (n : Nat) (h : n < 2 ^ 31) : i32Bits (n : Int) = n := by unfold i32Bits; omega

theorem rdI_nat (e : Endian) (n : Nat) (h : n < 2 ^ 31) (r : Bytes) : rdI e (encW e 4 n ++ r) = .ok ((n : Int), r) := by
  have := rdI_app e (n : Int) (by omega) (by omega) r
  rwa [i32Bits_nat n h] at this

/-- The byte order and the dimension found in the first mark. -/
theorem plane_tag (e : Endian) (k : Nat) (hk : k = 1 ∨ k = 2 ∨ k = 3) :
    (if i32Val (decW .little (encW e 4 (4 * k))) ≤ 1000 then Endian.little else Endian.big) = e ∧
      (i32Val (decW e (encW e 4 (4 * k)))).tdiv 4 = k := by
  have : ∀ k ∈ [1, 2, 3], ∀ e : Endian, e ∈ [Endian.little, Endian.big] →
    (if i32Val (decW .little (encW e 4 (4 * k))) ≤ 1000 then Endian.little else Endian.big) = e ∧
      (i32Val (decW e (encW e 4 (4 * k)))).tdiv 4 = k := by decide +kernel
  exact this k (by simpa using hk) e (by cases e <;> decide)

theorem readplane_start (e : Endian) (k : Nat) (hk : k = 1 ∨ k = 2 ∨ k = 3) (rest : Bytes) :
    readplane (encW e 4 (4 * k) ++ rest) = (planeBody e k rest).map Prod.fst := by
  obtain ⟨h1, h2⟩ := plane_tag e k hk
  have ht : (encW e 4 (4 * k) ++ rest).take 4 = encW e 4 (4 * k) := List.take_left' (encW_length _ _ _)
  unfold readplane
  simp only
  rw [ht, if_neg (by rw [encW_length]; decide), h1, h2, List.drop_left' (encW_length _ _ _)]

/-- **C28**: a two-dimensional plane file is decoded, in both byte orders. -/
theorem C28 (e : Endian) (n0 n1 : Nat) (h0 : n0 < 2 ^ 31) (h1 : n1 < 2 ^ 31) (x y d : Nat → Nat → F64) (mark : Nat → Bytes)
    (hm : ∀ k < 6, (mark k).length = 4) :
    ∃ P : Plane, readplane (planeFile e n0 n1 x y d mark) = .ok (some P) ∧ P.nn = [(n0 : Int), (n1 : Int)] ∧
      ∀ i < n0, ∀ j < n1, P.x 0 i j = x i j ∧ P.x 1 i j = y i j ∧ P.d i j = d i j := by
  unfold planeFile
  rw [show encW e 4 8 = encW e 4 (4 * 2) from rfl, readplane_start e 2 (by omega)]
  unfold planeBody
  have hnn : ((List.range ((2 : Nat) : Int).toNat).mapM fun _ => rdI e : Rd (List Int)) =
      (do let a ← rdI e; let b ← rdI e; pure [a, b]) := by
    simp [List.range_succ, List.mapM_cons]
  have hs : ∀ r, (do let a ← rdI e; let b ← rdI e; pure [a, b] : Rd (List Int)) (encW e 4 n0 ++ (encW e 4 n1 ++ r)) = .ok ([(n0 : Int), (n1 : Int)], r) := by
    intro r
    rw [rd_bind (rdI_nat e n0 h0 _), rd_bind (rdI_nat e n1 h1 _)]
    rfl
  rw [hnn, rd_bind (hs _), rd_bind (rd_app (hm 0 (by omega)) _), if_pos (by rfl)]
  rw [if_neg (by simp)]
  simp only [List.getD_cons_zero, List.getD_cons_succ, Int.toNat_natCast]
  have hb : planeBody2 e n0 n1 (mark 1 ++ (dbls e (columns n0 n1 x) ++ (mark 2 ++ (mark 3 ++
      (dbls e (columns n0 n1 y) ++ (mark 4 ++ (mark 5 ++ (dbls e (columns n0 n1 d) ++ mark 6)))))))) =
      .ok (⟨fun c i j => if c = 0 then reshapeF n0 (columns n0 n1 x) i j else reshapeF n0 (columns n0 n1 y) i j,
        reshapeF n0 (columns n0 n1 d), [(n0 : Int), (n1 : Int)]⟩, mark 6) := by
    unfold planeBody2
    rw [rd_bind (rd_app (hm 1 (by omega)) _), rd_bind (rdD_app e _ _ (columns_length n0 n1 x) _), rd_bind (rd_app (hm 2 (by omega)) _),
      rd_bind (rd_app (hm 3 (by omega)) _), rd_bind (rdD_app e _ _ (columns_length n0 n1 y) _), rd_bind (rd_app (hm 4 (by omega)) _),
      rd_bind (rd_app (hm 5 (by omega)) _), rd_bind (rdD_app e _ _ (columns_length n0 n1 d) _)]
    rfl
  rw [rd_bind hb]
  refine ⟨_, rfl, rfl, fun i hi j hj => ?_⟩
  simp only [if_true, one_ne_zero, if_false]
  exact ⟨reshapeF_columns n0 n1 x i j hi hj, reshapeF_columns n0 n1 y i j hi hj, reshapeF_columns n0 n1 d i j hi hj⟩

namespace Samples

/-- A plane of 3 × 2 points with distinct numbers, big endian, and with marks that are not lengths. -/
def plane : Bytes :=
  planeFile .big 3 2 (fun i j => Flt.ofBits (1000 + 10 * i + j)) (fun i j => Flt.ofBits (2000 + 10 * i + j))
    (fun i j => Flt.ofBits (3000 + 10 * i + j)) fun k => [0, 1, 2, UInt8.ofNat k]

example : ∃ P : Plane, readplane plane = .ok (some P) ∧ P.nn = [3, 2] ∧ P.x 0 2 1 = Flt.ofBits 1021 ∧ P.x 1 0 1 = Flt.ofBits 2001 ∧
    P.d 1 0 = Flt.ofBits 3010 := by
  obtain ⟨P, h1, h2, h3⟩ := C28 .big 3 2 (by decide) (by decide) (fun i j => Flt.ofBits (1000 + 10 * i + j))
    (fun i j => Flt.ofBits (2000 + 10 * i + j)) (fun i j => Flt.ofBits (3000 + 10 * i + j)) (fun k => [0, 1, 2, UInt8.ofNat k]) (fun _ _ => rfl)
  exact ⟨P, h1, h2, (h3 2 (by decide) 1 (by decide)).1, (h3 0 (by decide) 1 (by decide)).2.1, (h3 1 (by decide) 0 (by decide)).2.2⟩

example : ((readplane plane).toOption.join.map fun P => (P.nn, P.x 0 2 1, P.x 1 0 1, P.d 1 0, P.d 2 1)) =
    some ([3, 2], Flt.ofBits 1021, Flt.ofBits 2001, Flt.ofBits 3010, Flt.ofBits 3021) := by decide +kernel

end Samples

theorem rd_any {α : Type} (x : Rd α) (s : Bytes) : (∃ a s', x s = .ok (a, s')) ∨ ∃ err, x s = .error err := by
  cases h : x s with
  | ok p => exact .inl ⟨p.1, p.2, rfl⟩
  | error e => exact .inr ⟨e, rfl⟩

/-- **C29** is false in the code: `readplane` raises for every file with one or three dimensions. -/
theorem C29_false (e : Endian) (k : Nat) (hk : k = 1 ∨ k = 3) (rest : Bytes) : ∃ err, readplane (encW e 4 (4 * k) ++ rest) = .error err := by
  rw [readplane_start e k (by omega)]
  suffices ∃ err, planeBody e k rest = .error err by
    obtain ⟨err, h⟩ := this
    exact ⟨err, by rw [h]; rfl⟩
  unfold planeBody
  rcases rd_any ((List.range ((k : Int)).toNat).mapM fun _ => rdI e : Rd (List Int)) rest with ⟨nn, s1, h1⟩ | ⟨err, h1⟩
  · rw [rd_bind h1]
    rw [rd_bind (show rd 4 s1 = .ok (s1.take 4, s1.drop 4) from rfl), if_neg (by omega), if_pos (by omega)]
    split
    · exact ⟨_, rfl⟩
    · rcases rd_any (rdI e) (s1.drop 4) with ⟨a, s2, h2⟩ | ⟨err, h2⟩
      · rw [rd_bind h2]
        exact ⟨_, rfl⟩
      · rw [rd_bind_err h2]
        exact ⟨_, rfl⟩
  · rw [rd_bind_err h1]
    exact ⟨_, rfl⟩

theorem rdI_list (e : Endian) (ns : List Nat) (h : ∀ n ∈ ns, n < 2 ^ 31) (r : Bytes) (l : List Nat) (hl : l.length = ns.length) :
    (l.mapM fun _ => rdI e : Rd (List Int)) (ns.flatMap (fun n => encW e 4 n) ++ r) = .ok (ns.map fun n : Nat => (n : Int), r) := by
  induction ns generalizing l with
  | nil =>
    obtain rfl := List.length_eq_zero_iff.mp hl
    rfl
  | cons n ns ih =>
    obtain ⟨a, l, rfl⟩ : ∃ a l', l = a :: l' := by
      cases l with
      | nil => simp at hl
      | cons a l => exact ⟨a, l, rfl⟩
    rw [List.mapM_cons, List.flatMap_cons, List.append_assoc, rd_bind (rdI_nat e n (h n List.mem_cons_self) _),
      rd_bind (ih (fun n hn => h n (List.mem_cons_of_mem _ hn)) l (by simpa using hl))]
    rfl

/-- The exception is `TypeError` if the file is what it should be. -/
theorem C29_type (e : Endian) (ns : List Nat) (hk : ns.length = 1 ∨ ns.length = 3) (hn : ∀ n ∈ ns, n < 2 ^ 31) (m0 m1 rest : Bytes)
    (h0 : m0.length = 4) (h1 : m1.length = 4) :
    readplane (encW e 4 (4 * ns.length) ++ (ns.flatMap (fun n => encW e 4 n) ++ (m0 ++ (m1 ++ rest)))) = .error .typeError := by
  rw [readplane_start e ns.length (by omega)]
  unfold planeBody
  rw [rd_bind (rdI_list e ns hn _ _ (by simp)), rd_bind (rd_app h0 _), if_neg (by omega), if_pos (by omega), if_neg (by simp)]
  obtain ⟨a, ha⟩ := rdI_any e m1 rest h1
  rw [rd_bind ha]
  rfl

example (rest : Bytes) : ∃ err, readplane (encW .little 4 12 ++ rest) = .error err := C29_false .little 3 (by decide) rest

/-- A line of two points, complete. -/
example : readplane (encW .little 4 4 ++ (encW .little 4 2 ++ (encW .little 4 4 ++ (encW .little 4 16 ++
    (dbls .little [Flt.ofBits 1, Flt.ofBits 2] ++ (encW .little 4 16 ++ (encW .little 4 16 ++ (dbls .little [Flt.ofBits 3, Flt.ofBits 4] ++ encW .little 4 16)))))))) = .error .typeError :=
  C29_type .little [2] (by decide) (by decide) (encW .little 4 4) (encW .little 4 16) _ (by decide) (by decide)

/-! ### The planes of `readdns` -/

namespace Spec

/-- The planes of one component: for every spanwise index and every wall-normal index a line of numbers and the marks of its
record. -/
def planesFile (e : Endian) (nz ny : Nat) (L : Nat × Nat → List F64) (m : Nat × Nat → Bytes) : Bytes :=
  (prod2 (List.range nz) (List.range ny)).flatMap fun t => lineB e (L t) (m t)

end Spec

/-- The buffer after one component. -/
theorem dnsFou_planes {C : Type} (e : Endian) (nx ny nz : Nat) (coef : F64 → F64 → C) (fou : Nat → Nat → Nat → C)
    (L : Nat × Nat → List F64) (m : Nat × Nat → Bytes) (hL : ∀ t, (L t).length = nx) (hm : ∀ t, (m t).length = 8) (r : Bytes) :
    dnsFou e nx ny nz coef fou (planesFile e nz ny L m ++ r) =
      .ok ((prod2 (List.range nz) (List.range ny)).foldl (putLine nx nz coef L) fou, r) :=
  dnsFold_app e nx nz coef L m _ (fun t _ => hL t) (fun t _ => hm t) fou r

/-- **C30** is false in the code for every even number of points from four on: the slot of the last wavenumber is never
written, and plane `nz / 2` is overwritten by plane `nz - 1`, so that the result does not depend on it. -/
theorem C30_false {C : Type} (e : Endian) (nx ny k : Nat) (hk : 2 ≤ k) (coef : F64 → F64 → C) (fou : Nat → Nat → Nat → C)
    (L : Nat × Nat → List F64) (m : Nat × Nat → Bytes) (hL : ∀ t, (L t).length = nx) (hm : ∀ t, (m t).length = 8) (r : Bytes) :
    ∃ fou', dnsFou e nx ny (2 * k) coef fou (planesFile e (2 * k) ny L m ++ r) = .ok (fou', r) ∧
      (∀ y x, fou' (2 * k - 1) y x = fou (2 * k - 1) y x) ∧
      (∀ y < ny, ∀ x < nx / 2, fou' k y x = coef ((L (2 * k - 1, y)).getD (2 * x) 0) ((L (2 * k - 1, y)).getD (2 * x + 1) 0)) := by
  refine ⟨_, dnsFou_planes e nx ny (2 * k) coef fou L m hL hm r, fun y x => ?_, fun y hy x hx => ?_⟩
  · refine foldl_put_none _ _ _ _ _ _ _ _ _ fun t ht h1 _ => ?_
    rw [mem_prod2] at ht
    have hz := List.mem_range.mp ht.1
    unfold slot at h1
    split at h1 <;> omega
  · have hs : slot (2 * k) (2 * k - 1) = k := by
      unfold slot
      rw [if_neg (by omega)]
      omega
    have := foldl_put_last nx ny (2 * k) coef L fou (2 * k - 1) y x (by omega) hy hx (fun j h1 h2 => by omega)
    rw [hs] at this
    exact this

/-- **C30**, the part that holds: every plane but number `nz / 2` is found in its slot, and for up to two points that one
as well. Missing: plane `nz / 2` and slot `nz - 1`, see `C30_false`. -/
theorem C30_partial {C : Type} (e : Endian) (nx ny k : Nat) (coef : F64 → F64 → C) (fou : Nat → Nat → Nat → C)
    (L : Nat × Nat → List F64) (m : Nat × Nat → Bytes) (hL : ∀ t, (L t).length = nx) (hm : ∀ t, (m t).length = 8) (r : Bytes) :
    ∃ fou', dnsFou e nx ny (2 * k) coef fou (planesFile e (2 * k) ny L m ++ r) = .ok (fou', r) ∧
      ∀ z < 2 * k, z ≠ k ∨ k ≤ 1 → ∀ y < ny, ∀ x < nx / 2,
        fou' (if z ≤ k then z else 3 * k - 1 - z) y x = coef ((L (z, y)).getD (2 * x) 0) ((L (z, y)).getD (2 * x + 1) 0) := by
  refine ⟨_, dnsFou_planes e nx ny (2 * k) coef fou L m hL hm r, fun z hz hzk y hy x hx => ?_⟩
  have hs : slot (2 * k) z = if z ≤ k then z else 3 * k - 1 - z := by
    unfold slot
    split
    · rw [if_pos (by omega)]
    · rw [if_neg (by omega)]
      omega
  rw [← hs]
  refine foldl_put_last nx ny (2 * k) coef L fou z y x hz hy hx fun j h1 h2 => ?_
  unfold slot
  split <;> split <;> omega

/-- Four planes of one line each: the third is lost, the last slot keeps what was there before. -/
example : ∃ fou', dnsFou .little 2 1 4 (fun a _ => a) (fun _ _ _ => (0 : F64))
      (planesFile .little 4 1 (fun t => [Flt.ofBits (t.1 + 7), 0]) (fun _ => List.replicate 8 0)) = .ok (fou', []) ∧
    fou' 0 0 0 = Flt.ofBits 7 ∧ fou' 1 0 0 = Flt.ofBits 8 ∧ fou' 2 0 0 = Flt.ofBits 10 ∧ fou' 3 0 0 = 0 := by
  obtain ⟨f, h1, h2, h3⟩ := C30_false .little 2 1 2 (by decide) (fun a _ => a) (fun _ _ _ => (0 : F64)) (fun t => [Flt.ofBits (t.1 + 7), 0])
    (fun _ => List.replicate 8 0) (fun _ => rfl) (fun _ => rfl) []
  obtain ⟨g, g1, g2⟩ := C30_partial .little 2 1 2 (fun a _ => a) (fun _ _ _ => (0 : F64)) (fun t => [Flt.ofBits (t.1 + 7), 0])
    (fun _ => List.replicate 8 0) (fun _ => rfl) (fun _ => rfl) []
  rw [List.append_nil] at h1 g1
  obtain rfl : f = g := congrArg Prod.fst (Except.ok.inj (h1.symm.trans g1))
  exact ⟨f, h1, g2 0 (by decide) (by decide) 0 (by decide) 0 (by decide), g2 1 (by decide) (by decide) 0 (by decide) 0 (by decide),
    h3 0 (by decide) 0 (by decide), h2 0 0⟩

/-! ### Passive scalars -/

/-- The characters of a number. -/
def isNumC (c : Char) : Prop := c ≠ '?' ∧ c ≠ '@'

theorem digitV_isNumC (c : Char) (d : Nat) (h : digitV c = some d) : isNumC c := by
  unfold isNumC
  constructor <;> (rintro rfl; revert h; unfold digitV; simp)

theorem runGo_chars (s : Text) : ∀ acc n v, runGo acc n s = some v → ∀ c ∈ s, isNumC c := by
  induction hn : s.length using Nat.strongRecOn generalizing s with
  | ind k ih =>
  intro acc n v h
  match s, h with
  | [], _ => simp
  | [c], h =>
    rw [runGo, Option.map_eq_some_iff] at h
    obtain ⟨d, hc, -⟩ := h
    simpa using digitV_isNumC c d hc
  | c :: c' :: cs, h =>
    simp only [runGo] at h
    cases hc : digitV c with
    | some d =>
      rw [hc] at h
      intro a ha
      rcases List.mem_cons.mp ha with rfl | ha
      · exact digitV_isNumC _ d hc
      · exact ih (c' :: cs).length (by rw [← hn]; simp) (c' :: cs) rfl _ _ _ h a ha
    | none =>
      rw [hc] at h
      simp only at h
      split at h
      · rename_i hu
        rw [Option.bind_eq_some_iff] at h
        obtain ⟨d, hc', h⟩ := h
        intro a ha
        rcases List.mem_cons.mp ha with rfl | ha
        · rw [hu]
          exact ⟨by decide, by decide⟩
        rcases List.mem_cons.mp ha with rfl | ha
        · exact digitV_isNumC _ d hc'
        · exact ih cs.length (by rw [← hn]; simp; omega) cs rfl _ _ _ h a ha
      · exact absurd h (by simp)

theorem runV_chars (s : Text) (v) (h : runV s = some v) : ∀ c ∈ s, isNumC c := by
  cases s with
  | nil => simp
  | cons c cs =>
    rw [runV, Option.bind_eq_some_iff] at h
    obtain ⟨d, hc, h⟩ := h
    intro a ha
    rcases List.mem_cons.mp ha with rfl | ha
    · exact digitV_isNumC _ d hc
    · exact runGo_chars cs _ _ _ h a ha

theorem cutAt_chars (p : Char → Bool) (hp : ∀ c, p c → isNumC c) (s : Text) (h1 : ∀ c ∈ (cutAt p s).1, isNumC c)
    (h2 : ∀ t, (cutAt p s).2 = some t → ∀ c ∈ t, isNumC c) : ∀ c ∈ s, isNumC c := by
  induction s with
  | nil => simp
  | cons c cs ih =>
    intro a ha
    rw [cutAt] at h1 h2
    by_cases hc : p c = true
    · rw [if_pos hc] at h2
      rcases List.mem_cons.mp ha with rfl | ha
      · exact hp _ hc
      · exact h2 cs rfl a ha
    · rw [if_neg hc] at h1 h2
      rcases List.mem_cons.mp ha with rfl | ha
      · exact h1 _ List.mem_cons_self
      · exact ih (fun c hc => h1 c (List.mem_cons_of_mem _ hc)) h2 a ha

theorem signOf_chars (s : Text) (h : ∀ c ∈ (signOf s).2, isNumC c) : ∀ c ∈ s, isNumC c := by
  cases s with
  | nil => simp
  | cons c cs =>
    rw [signOf] at h
    intro a ha
    split at h
    · rename_i hc
      rcases List.mem_cons.mp ha with rfl | ha
      · rw [hc]; exact ⟨by decide, by decide⟩
      · exact h a ha
    · split at h
      · rename_i hc
        rcases List.mem_cons.mp ha with rfl | ha
        · rw [hc]; exact ⟨by decide, by decide⟩
        · exact h a ha
      · exact h a ha

theorem mantV_chars (s : Text) (v) (h : mantV s = some v) : ∀ c ∈ s, isNumC c := by
  have hp : ∀ c : Char, (c == '.') = true → isNumC c := by
    intro c hc
    rw [beq_iff_eq] at hc
    rw [hc]
    exact ⟨by decide, by decide⟩
  unfold mantV at h
  split at h
  · rename_i ip he
    rw [Option.map_eq_some_iff] at h
    obtain ⟨w, hw, -⟩ := h
    refine cutAt_chars _ hp s ?_ ?_
    · rw [he]; exact runV_chars _ _ hw
    · rw [he]; simp
  · rename_i ip fp he
    have goal : (∀ c ∈ ip, isNumC c) → (∀ c ∈ fp, isNumC c) → ∀ c ∈ s, isNumC c := by
      intro h1 h2
      refine cutAt_chars _ hp s ?_ ?_
      · rw [he]; exact h1
      · rw [he]
        intro t ht
        obtain rfl := Option.some.inj ht
        exact h2
    split at h
    · rename_i h0
      exact goal (by rw [h0]; simp) (runV_chars _ _ h)
    · split at h
      · rename_i h0
        rw [Option.map_eq_some_iff] at h
        obtain ⟨w, hw, -⟩ := h
        exact goal (runV_chars _ _ hw) (by rw [h0]; simp)
      · rw [Option.bind_eq_some_iff] at h
        obtain ⟨w, hw, h⟩ := h
        rw [Option.map_eq_some_iff] at h
        obtain ⟨w', hw', -⟩ := h
        exact goal (runV_chars _ _ hw) (runV_chars _ _ hw')

theorem pyInt_chars (s : Text) (v) (h : pyInt s = some v) : ∀ c ∈ s, isNumC c := by
  unfold pyInt at h
  simp only [Option.map_eq_some_iff] at h
  obtain ⟨w, hw, -⟩ := h
  exact signOf_chars s (runV_chars _ _ hw)

theorem decLit_chars (s : Text) (v) (h : decLit s = some v) : ∀ c ∈ s, isNumC c := by
  have hp : ∀ c : Char, (c == 'e' || c == 'E') = true → isNumC c := by
    intro c hc
    rw [Bool.or_eq_true, beq_iff_eq, beq_iff_eq] at hc
    rcases hc with rfl | rfl <;> exact ⟨by decide, by decide⟩
  unfold decLit at h
  simp only at h
  apply signOf_chars
  split at h
  · rename_i a he
    rw [Option.map_eq_some_iff] at h
    obtain ⟨w, hw, -⟩ := h
    refine cutAt_chars _ hp _ ?_ ?_
    · rw [he]; exact mantV_chars _ _ hw
    · rw [he]; simp
  · rename_i a b he
    rw [Option.bind_eq_some_iff] at h
    obtain ⟨w, hw, h⟩ := h
    rw [Option.map_eq_some_iff] at h
    obtain ⟨w', hw', -⟩ := h
    refine cutAt_chars _ hp _ ?_ ?_
    · rw [he]; exact mantV_chars _ _ hw
    · rw [he]
      intro t ht
      obtain rfl := Option.some.inj ht
      exact pyInt_chars _ _ hw'

theorem lower_chars (t w : Text) (h : t.map lowerC = w) (hw : '?' ∉ w ∧ '@' ∉ w) : ∀ c ∈ t, isNumC c := by
  intro c hc
  have hm : lowerC c ∈ w := by rw [← h]; exact List.mem_map_of_mem hc
  constructor <;> rintro rfl
  · exact hw.1 hm
  · exact hw.2 hm

/-- No literal contains a question mark or an at sign. -/
theorem pyFloat_chars (s : Text) (v) (h : pyFloat s = some v) : ∀ c ∈ s, isNumC c := by
  unfold pyFloat at h
  simp only at h
  split at h
  · rename_i h0
    exact signOf_chars s (lower_chars _ _ h0 (by decide))
  · split at h
    · rename_i h0
      rcases h0 with h0 | h0
      · exact signOf_chars s (lower_chars _ _ h0 (by decide))
      · exact signOf_chars s (lower_chars _ _ h0 (by decide))
    · rw [Option.map_eq_some_iff] at h
      obtain ⟨w, hw, -⟩ := h
      exact decLit_chars s w hw

theorem mem_dropWhile_of {α : Type} (p : α → Bool) (a : α) (h : p a = false) (l : List α) (hl : a ∈ l) : a ∈ l.dropWhile p := by
  induction l with
  | nil => exact hl
  | cons b l ih =>
    rw [List.dropWhile_cons]
    split
    · rename_i hb
      rcases List.mem_cons.mp hl with rfl | hl
      · rw [h] at hb; exact absurd hb (by decide)
      · exact ih hl
    · exact hl

/-- Eight bytes among which is the character `?` or `@` are no literal. -/
theorem npFloat_error (b : Bytes) (x : UInt8) (hx : x ∈ b) (h : x = 63 ∨ x = 64) : npFloat b = .error .valueError := by
  unfold npFloat
  simp only
  set b' := (b.reverse.dropWhile (· == 0)).reverse with hb'
  have h1 : x ∈ b' := by
    rw [hb', List.mem_reverse]
    apply mem_dropWhile_of
    · rcases h with rfl | rfl <;> rfl
    · exact List.mem_reverse.mpr hx
  have h2 : Char.ofNat x.toNat ∈ decodeB b' := List.mem_map_of_mem h1
  have h3 : isSpaceC (Char.ofNat x.toNat) = false := by rcases h with rfl | rfl <;> decide
  have h4 : Char.ofNat x.toNat ∈ (((decodeB b').dropWhile isSpaceC).reverse.dropWhile isSpaceC).reverse := by
    rw [List.mem_reverse]
    apply mem_dropWhile_of _ _ h3
    rw [List.mem_reverse]
    exact mem_dropWhile_of _ _ h3 _ h2
  cases hf : pyFloat (((decodeB b').dropWhile isSpaceC).reverse.dropWhile isSpaceC).reverse with
  | none => rfl
  | some v =>
    have := pyFloat_chars _ v hf _ h4
    rcases h with rfl | rfl
    · exact absurd rfl this.1
    · exact absurd rfl this.2

theorem leBytes_mem (k n j : Nat) (h : j < k) : UInt8.ofNat (n / 256 ^ j % 256) ∈ leBytes k n := by
  induction k generalizing n j with
  | zero => omega
  | succ k ih =>
    rw [leBytes]
    cases j with
    | zero => simp
    | succ j =>
      have := ih (n / 256) j (by omega)
      rw [Nat.div_div_eq_div_mul, ← Nat.pow_succ'] at this
      exact List.mem_cons_of_mem _ this

theorem encW_mem (e : Endian) (k n j : Nat) (h : j < k) : UInt8.ofNat (n / 256 ^ j % 256) ∈ encW e k n := by
  cases e
  · exact leBytes_mem k n j h
  · exact List.mem_reverse.mpr (leBytes_mem k n j h)

/-- The first byte of a double between 2^-15 and 2^17 is `?` or `@`. -/
theorem top_byte (x : F64) (h1 : 1 / 2 ^ 15 ≤ x.val) (h2 : x.val < 2 ^ 17) : x.bits / 256 ^ 7 % 256 = 63 ∨ x.bits / 256 ^ 7 % 256 = 64 := by
  have hn : x.neg = false := by
    cases hb : x.neg with
    | false => rfl
    | true =>
      exfalso
      unfold Flt.val at h1
      rw [hb, if_pos rfl] at h1
      have := Flt.magVal_nonneg (eb := 11) (mb := 52) x.mag
      have : (0 : ℚ) < 1 / 2 ^ 15 := by norm_num
      linarith
  have hv : x.val = Flt.magVal 11 52 x.mag := by
    unfold Flt.val
    rw [hn]
    rfl
  have hb : x.bits = x.mag := by
    unfold Flt.bits
    rw [hn]
    simp
  rw [hv] at h1 h2
  have e1 : Flt.magVal 11 52 (63 * 2 ^ 56) = 1 / 2 ^ 15 := by decide +kernel
  have e2 : Flt.magVal 11 52 (65 * 2 ^ 56) = 2 ^ 17 := by decide +kernel
  have hlt : x.mag < 65 * 2 ^ 56 := by
    by_contra hc
    have := Flt.magVal_mono (eb := 11) (mb := 52) (not_lt.mp hc)
    linarith
  have e3 : Flt.magVal 11 52 (63 * 2 ^ 56 - 1) < 1 / 2 ^ 15 := by decide +kernel
  have hge : 63 * 2 ^ 56 ≤ x.mag := by
    by_contra hc
    have := Flt.magVal_mono (eb := 11) (mb := 52) (show x.mag ≤ 63 * 2 ^ 56 - 1 by omega)
    exact absurd (h1.trans this) (not_le.mpr e3)
  rw [hb]
  norm_num
  omega

/-- The byte order and the number of scalars found in the tag. -/
theorem dns_tag (e : Endian) (n : Nat) (h : n ≤ 100) :
    (44 ≤ i32Val (decW e (encW e 4 (44 + 16 * n))) ∧ i32Val (decW e (encW e 4 (44 + 16 * n))) ≤ 1644) ∧
    ((i32Val (decW e (encW e 4 (44 + 16 * n))) - 44).tdiv 16).toNat = n ∧
    (e = .big → ¬ (44 ≤ i32Val (decW .little (encW e 4 (44 + 16 * n))) ∧ i32Val (decW .little (encW e 4 (44 + 16 * n))) ≤ 1644)) := by
  have : ∀ n < 101, ∀ e ∈ [Endian.little, Endian.big],
    (44 ≤ i32Val (decW e (encW e 4 (44 + 16 * n))) ∧ i32Val (decW e (encW e 4 (44 + 16 * n))) ≤ 1644) ∧
    ((i32Val (decW e (encW e 4 (44 + 16 * n))) - 44).tdiv 16).toNat = n ∧
    (e = .big → ¬ (44 ≤ i32Val (decW .little (encW e 4 (44 + 16 * n))) ∧ i32Val (decW .little (encW e 4 (44 + 16 * n))) ≤ 1644)) := by
    decide +kernel
  exact this n (by omega) e (by cases e <;> decide)

/-- **C31** is false in the code: a file that announces scalars cannot be read if the first Prandtl number is between 2^-15 and
2^17. `start` is what comes before it: Reynolds number, flag, box, time and a number that is ignored. -/
theorem C31_false {C V : Type} (native e : Endian) (zero : C) (coef : Nat → Nat → F64 → F64 → C)
    (ift : Nat → Nat → (Nat → Nat → Nat → C) → Nat → Nat → Nat → V) (crd : DnsHead → Nat → Nat → Nat → Nat → V) (nscal : Nat) (h1 : 1 ≤ nscal) (h2 : nscal ≤ 100)
    (start rest : Bytes) (hs : start.length = 44) (pr : F64) (hp1 : 1 / 2 ^ 15 ≤ pr.val) (hp2 : pr.val < 2 ^ 17) :
    readdns native zero coef ift crd (encW e 4 (44 + 16 * nscal) ++ (start ++ (encW e 8 pr.bits ++ rest))) = .error .valueError := by
  obtain ⟨⟨ha, hb⟩, hc, hd⟩ := dns_tag e nscal h2
  have hscal : ∀ r, dnsScalar native e (encW e 8 pr.bits ++ r) = .error .valueError := by
    intro r
    unfold dnsScalar
    rw [rd_bind (rd_app (encW_length _ _ _) _)]
    apply rd_bind_err
    have hm := encW_mem e 8 pr.bits 7 (by omega)
    rw [npFloat_error _ _ hm (by rcases top_byte pr hp1 hp2 with h | h <;> rw [h] <;> decide)]
    rfl
  have hhead : dnsHead native e nscal (start ++ (encW e 8 pr.bits ++ rest)) = .error .valueError := by
    obtain ⟨s1, s2, s3, s4, s5, rfl, l1, l2, l3, l4, l5⟩ : ∃ s1 s2 s3 s4 s5 : Bytes, start = s1 ++ (s2 ++ (s3 ++ (s4 ++ s5))) ∧
        s1.length = 8 ∧ s2.length = 4 ∧ s3.length = 8 * 2 ∧ s4.length = 8 ∧ s5.length = 8 := by
      refine ⟨start.take 8, (start.drop 8).take 4, (start.drop 12).take 16, (start.drop 28).take 8, start.drop 36, ?_, ?_, ?_, ?_, ?_, ?_⟩
      · have e1 : start.drop 12 = (start.drop 8).drop 4 := by simp
        have e2 : start.drop 28 = (start.drop 12).drop 16 := by simp
        have e3 : start.drop 36 = (start.drop 28).drop 8 := by simp
        rw [e3, List.take_append_drop, e2, List.take_append_drop, e1, List.take_append_drop, List.take_append_drop]
      all_goals simp [hs]
    simp only [List.append_assoc]
    unfold dnsHead
    obtain ⟨_, q1⟩ := rdD1_any e s1 (s2 ++ (s3 ++ (s4 ++ (s5 ++ (encW e 8 pr.bits ++ rest))))) l1
    obtain ⟨_, q2⟩ := rdI_any e s2 (s3 ++ (s4 ++ (s5 ++ (encW e 8 pr.bits ++ rest)))) l2
    obtain ⟨_, q3⟩ := rdD_any e 2 s3 (s4 ++ (s5 ++ (encW e 8 pr.bits ++ rest))) l3
    obtain ⟨_, q4⟩ := rdD1_any e s4 (s5 ++ (encW e 8 pr.bits ++ rest)) l4
    rw [rd_bind q1, rd_bind q2, rd_bind q3, rd_bind q4, rd_bind (rd_app l5 _)]
    apply rd_bind_err
    obtain ⟨k, rfl⟩ : ∃ k, nscal = k + 1 := ⟨nscal - 1, by omega⟩
    rw [List.range_succ_eq_map, List.mapM_cons]
    exact rd_bind_err (hscal rest)
  have ht : (encW e 4 (44 + 16 * nscal) ++ (start ++ (encW e 8 pr.bits ++ rest))).take 4 = encW e 4 (44 + 16 * nscal) :=
    List.take_left' (encW_length _ _ _)
  have hdp : (encW e 4 (44 + 16 * nscal) ++ (start ++ (encW e 8 pr.bits ++ rest))).drop 4 = start ++ (encW e 8 pr.bits ++ rest) :=
    List.drop_left' (encW_length _ _ _)
  unfold readdns
  simp only
  rw [ht, hdp, if_neg (by rw [encW_length]; decide)]
  cases e with
  | little =>
    rw [if_pos ⟨ha, hb⟩, hc, rd_bind_err hhead]
    rfl
  | big =>
    rw [if_neg (hd rfl), if_pos ⟨ha, hb⟩, hc, rd_bind_err hhead]
    rfl

/-- One scalar with Prandtl number one. -/
example (rest : Bytes) :
    readdns .little (0 : F64) (fun _ _ a _ => a) (fun _ _ f => f) (fun _ _ _ _ _ => (0 : F64)) (encW .big 4 60 ++ (List.replicate 44 0 ++ (encW .big 8 (Flt.ofBits (1023 * 2 ^ 52) : F64).bits ++ rest))) =
      .error .valueError :=
  C31_false .little .big 0 _ _ _ 1 (by decide) (by decide) _ rest (by decide) (Flt.ofBits (1023 * 2 ^ 52)) (by decide +kernel) (by decide +kernel)

end Pymech
