import Verif.Props.SimsonCut

/-!
# C131: what the SIMSON readers return for arbitrary files
-/

set_option autoImplicit false

namespace Pymech

open Spec

/-- Success uses at least `n` bytes. -/
def Uses {α : Type} (n : Nat) (x : Rd α) : Prop := ∀ s a t, x s = .ok (a, t) → t.length + n ≤ s.length

theorem Uses.bind {α β : Type} {x : Rd α} {k : α → Rd β} {m n : Nat} (hx : Uses m x) (hk : ∀ a, Uses n (k a)) : Uses (m + n) (x >>= k) := by
  intro s b t h
  obtain ⟨a, u, h1, h2⟩ := rd_bind_inv h
  have := hx s a u h1
  have := hk a u b t h2
  omega

theorem Uses.mono {α : Type} {x : Rd α} {m n : Nat} (hx : Uses m x) (h : n ≤ m) : Uses n x := by
  intro s a t e
  have := hx s a t e
  omega

theorem uses_pure {α : Type} (a : α) : Uses 0 (pure a : Rd α) := by
  intro s b t h
  injection h with h
  rw [← (Prod.mk.inj h).2]
  omega

theorem uses_of {α : Type} (p : Py α) : Uses 0 (Rd.of p) := by
  intro s b t h
  unfold Rd.of at h
  cases p with
  | error => cases h
  | ok a =>
    injection h with h
    rw [← (Prod.mk.inj h).2]
    omega

theorem uses_rd (n : Nat) : Uses 0 (rd n) := by
  intro s b t h
  injection h with h
  rw [← (Prod.mk.inj h).2, List.length_drop]
  omega

theorem uses_rdI (e : Endian) : Uses 4 (rdI e) := by
  intro s b t h
  obtain ⟨a, u, h1, h2⟩ := rd_bind_inv h
  injection h1 with h1
  obtain ⟨rfl, rfl⟩ := Prod.mk.inj h1
  unfold Rd.of unpackI at h2
  by_cases hl : (s.take 4).length = 4
  · rw [if_pos hl] at h2
    injection h2 with h2
    rw [← (Prod.mk.inj h2).2, List.length_drop]
    rw [List.length_take] at hl
    omega
  · rw [if_neg hl] at h2
    cases h2

theorem uses_rdD (e : Endian) (n : Nat) : Uses (8 * n) (rdD e n) := by
  intro s b t h
  obtain ⟨a, u, h1, h2⟩ := rd_bind_inv h
  injection h1 with h1
  obtain ⟨rfl, rfl⟩ := Prod.mk.inj h1
  unfold Rd.of unpackD at h2
  by_cases hl : (s.take (8 * n)).length = 8 * n
  · rw [if_pos hl] at h2
    injection h2 with h2
    rw [← (Prod.mk.inj h2).2, List.length_drop]
    rw [List.length_take] at hl
    omega
  · rw [if_neg hl] at h2
    cases h2

theorem uses_rdD1 (e : Endian) : Uses 8 (rdD1 e) := (uses_rdD e 1).bind (n := 0) fun _ => uses_pure _

theorem Uses.mapM {α β : Type} {n : Nat} (l : List α) (f : α → Rd β) (h : ∀ a, Uses n (f a)) : Uses (l.length * n) (l.mapM f) := by
  induction l with
  | nil => rw [List.mapM_nil, List.length_nil, Nat.zero_mul]; exact uses_pure _
  | cons a l ih =>
    rw [List.mapM_cons, List.length_cons]
    refine ((h a).bind fun _ => ih.bind fun _ => uses_pure _).mono ?_
    rw [Nat.add_mul]
    omega

theorem Uses.foldlM {α β : Type} {n : Nat} (l : List α) (f : β → α → Rd β) (h : ∀ b a, Uses n (f b a)) (b : β) :
    Uses (l.length * n) (l.foldlM f b) := by
  induction l generalizing b with
  | nil => rw [List.foldlM_nil, List.length_nil, Nat.zero_mul]; exact uses_pure _
  | cons a l ih =>
    rw [List.foldlM_cons, List.length_cons]
    refine ((h b a).bind fun c => ih c).mono ?_
    rw [Nat.add_mul]
    omega

/-! ### Fields -/

theorem uses_flow (e : Endian) (nscal : Nat) (fltype : Int) : Uses 0 (dnsFlow e nscal fltype) := by
  have h1 : Uses 0 (rdD1 e) := (uses_rdD1 e).mono (Nat.zero_le _)
  have h2 : Uses 0 (rdD e nscal) := (uses_rdD e nscal).mono (Nat.zero_le _)
  unfold dnsFlow
  dsimp only
  repeat' first
    | exact uses_pure _
    | split
    | refine h1.bind (n := 0) fun _ => ?_
    | refine h2.bind (n := 0) fun _ => ?_
    | refine (uses_rd _).bind (n := 0) fun _ => ?_

/-- The header has at least 64 bytes, and what it says can be a grid. -/
theorem dnsHead_inv (native e : Endian) (nscal : Nat) (s : Bytes) (h : DnsHead) (t : Bytes) (hh : dnsHead native e nscal s = .ok (h, t)) :
    t.length + 64 ≤ s.length ∧ 0 < h.nx ∧ 0 < h.nz ∧ h.dstar.mag ≠ 0 := by
  unfold dnsHead at hh
  obtain ⟨re, s1, e1, hh⟩ := rd_bind_inv hh
  obtain ⟨flag, s2, e2, hh⟩ := rd_bind_inv hh
  obtain ⟨bx, s3, e3, hh⟩ := rd_bind_inv hh
  obtain ⟨time, s4, e4, hh⟩ := rd_bind_inv hh
  obtain ⟨pad, s5, e5, hh⟩ := rd_bind_inv hh
  obtain ⟨sc, s6, e6, hh⟩ := rd_bind_inv hh
  obtain ⟨m0, s7, e7, hh⟩ := rd_bind_inv hh
  obtain ⟨nx, s8, e8, hh⟩ := rd_bind_inv hh
  obtain ⟨ny, s9, e9, hh⟩ := rd_bind_inv hh
  obtain ⟨nz, s10, e10, hh⟩ := rd_bind_inv hh
  obtain ⟨sym, s11, e11, hh⟩ := rd_bind_inv hh
  obtain ⟨m1, s12, e12, hh⟩ := rd_bind_inv hh
  obtain ⟨fl, s13, e13, hh⟩ := rd_bind_inv hh
  obtain ⟨ds, s14, e14, hh⟩ := rd_bind_inv hh
  have u1 := uses_rdD1 e _ _ _ e1
  have u2 := uses_rdI e _ _ _ e2
  have u3 := uses_rdD e 2 _ _ _ e3
  have u4 := uses_rdD1 e _ _ _ e4
  have u5 := uses_rd 8 _ _ _ e5
  have hsc : Uses 0 (dnsScalar native e) := by
    unfold dnsScalar
    exact (uses_rd 8).bind (n := 0) fun _ => (uses_of _).bind (n := 0) fun _ => (uses_rd 8).bind (n := 0) fun _ => (uses_of _).bind (n := 0) fun _ => uses_pure _
  have u6 := ((Uses.mapM (List.range nscal) _ fun _ => hsc).mono (Nat.zero_le _)) _ _ _ e6
  have u7 := uses_rd 8 _ _ _ e7
  have u8 := uses_rdI e _ _ _ e8
  have u9 := uses_rdI e _ _ _ e9
  have u10 := uses_rdI e _ _ _ e10
  have u11 := uses_rdI e _ _ _ e11
  have u12 := uses_rd 8 _ _ _ e12
  have u13 := uses_rdI e _ _ _ e13
  have u14 := uses_rdD1 e _ _ _ e14
  by_cases hd : ds.mag = 0
  · rw [if_pos hd] at hh
    cases hh
  · rw [if_neg hd] at hh
    obtain ⟨m2, s15, e15, hh⟩ := rd_bind_inv hh
    obtain ⟨u, s16, e16, hh⟩ := rd_bind_inv hh
    have u15 := uses_rd 8 _ _ _ e15
    have u16 := uses_flow e nscal fl _ _ _ e16
    by_cases h1 : nx < 0 ∨ ny < 0 ∨ nz < 0
    · rw [if_pos h1] at hh
      cases hh
    · rw [if_neg h1] at hh
      by_cases h2 : nx = 0 ∨ nz = 0
      · rw [if_pos h2] at hh
        cases hh
      · rw [if_neg h2] at hh
        injection hh with hh
        obtain ⟨rfl, rfl⟩ := Prod.mk.inj hh
        exact ⟨by omega, by show 0 < nx.toNat; omega, by show 0 < nz.toNat; omega, hd⟩

theorem length_prod2 (l m : List Nat) : (prod2 l m).length = l.length * m.length := by
  unfold prod2
  induction l with
  | nil => simp
  | cons a l ih => simp_all [Nat.add_mul, Nat.add_comm]

theorem uses_fou {C : Type} (e : Endian) (nx ny nz : Nat) (coef : F64 → F64 → C) (fou : Nat → Nat → Nat → C) :
    Uses (nz * ny * (8 * nx)) (dnsFou e nx ny nz coef fou) := by
  have hl : Uses (8 * nx) (dnsLine e nx) := (uses_rdD e nx).bind (n := 0) fun _ => (uses_rd 8).bind (n := 0) fun _ => uses_pure _
  unfold dnsFou
  have := Uses.foldlM (prod2 (List.range nz) (List.range ny)) (fun (fou : Nat → Nat → Nat → C) (t : Nat × Nat) => (do
    let fi ← dnsLine e nx
    pure fun z y x => if z = slot nz t.1 ∧ y = t.2 ∧ x < nx / 2 then coef (fi.getD (2 * x) 0) (fi.getD (2 * x + 1) 0) else fou z y x :
      Rd (Nat → Nat → Nat → C))) (fun _ _ => hl.bind (n := 0) fun _ => uses_pure _) fou
  rwa [length_prod2, List.length_range, List.length_range] at this

theorem uses_fous {C : Type} (e : Endian) (nx ny nz : Nat) (coef : Nat → F64 → F64 → C) (cs : List Nat) (fou : Nat → Nat → Nat → C) (s : Bytes)
    (l : List (Nat → Nat → Nat → C)) (t : Bytes) (h : dnsFous e nx ny nz coef cs fou s = .ok (l, t)) :
    l.length = cs.length ∧ t.length + cs.length * (nz * ny * (8 * nx)) ≤ s.length := by
  induction cs generalizing fou s l t with
  | nil =>
    rw [dnsFous] at h
    injection h with h
    obtain ⟨rfl, rfl⟩ := Prod.mk.inj h
    simp
  | cons c cs ih =>
    rw [dnsFous] at h
    obtain ⟨f, s1, e1, h⟩ := rd_bind_inv h
    obtain ⟨l', s2, e2, h⟩ := rd_bind_inv h
    injection h with h
    obtain ⟨rfl, rfl⟩ := Prod.mk.inj h
    have := uses_fou e nx ny nz _ _ _ _ _ e1
    obtain ⟨i1, i2⟩ := ih _ _ _ _ e2
    rw [List.length_cons, List.length_cons, i1, Nat.add_mul]
    omega

namespace Spec

/-- Number of scalars that the tag of a velocity file announces. -/
def tagScalars (t : Int) : Nat := ((t - 44) / 16).toNat

end Spec

theorem tag_scalars (t : Int) (h : 44 ≤ t) : ((t - 44).tdiv 16).toNat = tagScalars t := by
  unfold tagScalars
  rw [Int.tdiv_eq_ediv_of_nonneg (by omega)]

/-- **C131**: whatever the bytes are, `readdns` returns a field only if the tag, in the byte order returned, says how many scalars there are, there
are points in x and z and the scale is not zero, and all numbers of all fields are in the file. -/
theorem C131 {C V : Type} (native : Endian) (zero : C) (coef : Nat → Nat → F64 → F64 → C)
    (ift : Nat → Nat → (Nat → Nat → Nat → C) → Nat → Nat → Nat → V) (crd : DnsHead → Nat → Nat → Nat → Nat → V) (b : Bytes) (D : Dns V)
    (h : readdns native zero coef ift crd b = .ok (some D)) :
    44 ≤ i32Val (decW D.endian (b.take 4)) ∧ i32Val (decW D.endian (b.take 4)) ≤ 1644 ∧
      D.fields.length = 3 + tagScalars (i32Val (decW D.endian (b.take 4))) ∧
      0 < D.head.nx ∧ 0 < D.head.nz ∧ D.head.dstar.mag ≠ 0 ∧
      4 + 64 + D.fields.length * (8 * (D.head.nx * D.head.ny * D.head.nz)) ≤ b.length := by
  have key : ∀ (e : Endian), 44 ≤ i32Val (decW e (b.take 4)) → i32Val (decW e (b.take 4)) ≤ 1644 →
      ((do
        let h ← dnsHead native e ((i32Val (decW e (b.take 4)) - 44).tdiv 16).toNat
        let fous ← dnsFous e h.nx h.ny h.nz (coef (h.nx * h.nz)) (List.range (3 + ((i32Val (decW e (b.take 4)) - 44).tdiv 16).toNat)) fun _ _ _ => zero
        pure (some ⟨h, e, crd h, fous.map (ift h.nx h.nz)⟩) : Rd (Option (Dns V))) (b.drop 4)).map Prod.fst = .ok (some D) → 4 ≤ b.length →
      44 ≤ i32Val (decW D.endian (b.take 4)) ∧ i32Val (decW D.endian (b.take 4)) ≤ 1644 ∧
        D.fields.length = 3 + tagScalars (i32Val (decW D.endian (b.take 4))) ∧
        0 < D.head.nx ∧ 0 < D.head.nz ∧ D.head.dstar.mag ≠ 0 ∧
        4 + 64 + D.fields.length * (8 * (D.head.nx * D.head.ny * D.head.nz)) ≤ b.length := by
    intro e h1 h2 hr hb
    rw [tag_scalars _ h1] at hr
    rcases rd_any (do
        let h ← dnsHead native e (tagScalars (i32Val (decW e (b.take 4))))
        let fous ← dnsFous e h.nx h.ny h.nz (coef (h.nx * h.nz)) (List.range (3 + tagScalars (i32Val (decW e (b.take 4))))) fun _ _ _ => zero
        pure (some ⟨h, e, crd h, fous.map (ift h.nx h.nz)⟩) : Rd (Option (Dns V))) (b.drop 4) with ⟨r, s, hs⟩ | ⟨err, hs⟩
    · rw [hs] at hr
      injection hr with hr
      dsimp only at hr
      subst hr
      obtain ⟨hd, s1, e1, hs⟩ := rd_bind_inv hs
      obtain ⟨fs, s2, e2, hs⟩ := rd_bind_inv hs
      injection hs with hs
      obtain ⟨hs, -⟩ := Prod.mk.inj hs
      injection hs with hs
      subst hs
      obtain ⟨a1, a2, a3, a4⟩ := dnsHead_inv native e _ _ _ _ e1
      obtain ⟨b1, b2⟩ := uses_fous _ _ _ _ _ _ _ _ _ _ e2
      rw [List.length_range] at b1 b2
      dsimp only
      rw [List.length_map, b1]
      refine ⟨h1, h2, rfl, a2, a3, a4, ?_⟩
      rw [List.length_drop] at a1
      have : hd.nz * hd.ny * (8 * hd.nx) = 8 * (hd.nx * hd.ny * hd.nz) := by ring
      rw [this] at b2
      omega
    · rw [hs] at hr
      cases hr
  unfold readdns at h
  simp only at h
  by_cases hl : (b.take 4).length ≠ 4
  · rw [if_pos hl] at h
    cases h
  · rw [if_neg hl] at h
    have hb : 4 ≤ b.length := by
      rw [not_not, List.length_take] at hl
      omega
    by_cases c1 : 44 ≤ i32Val (decW .little (b.take 4)) ∧ i32Val (decW .little (b.take 4)) ≤ 1644
    · rw [if_pos c1] at h
      exact key .little c1.1 c1.2 h hb
    · rw [if_neg c1] at h
      by_cases c2 : 44 ≤ i32Val (decW .big (b.take 4)) ∧ i32Val (decW .big (b.take 4)) ≤ 1644
      · rw [if_pos c2] at h
        exact key .big c2.1 c2.2 h hb
      · rw [if_neg c2] at h
        injection h with h
        cases h

/-- **C131**: `readdns` gives up without an exception exactly on files whose tag is a length of such a header in neither byte order. -/
theorem C131_none {C V : Type} (native : Endian) (zero : C) (coef : Nat → Nat → F64 → F64 → C)
    (ift : Nat → Nat → (Nat → Nat → Nat → C) → Nat → Nat → Nat → V) (crd : DnsHead → Nat → Nat → Nat → Nat → V) (b : Bytes) :
    readdns native zero coef ift crd b = .ok none ↔
      4 ≤ b.length ∧ ∀ e : Endian, i32Val (decW e (b.take 4)) < 44 ∨ 1644 < i32Val (decW e (b.take 4)) := by
  have key : ∀ (e : Endian) (n : Nat), ((do
        let h ← dnsHead native e n
        let fous ← dnsFous e h.nx h.ny h.nz (coef (h.nx * h.nz)) (List.range (3 + n)) fun _ _ _ => zero
        pure (some ⟨h, e, crd h, fous.map (ift h.nx h.nz)⟩) : Rd (Option (Dns V))) (b.drop 4)).map Prod.fst ≠ .ok none := by
    intro e n hr
    obtain ⟨t, hs⟩ := map_fst_ok hr
    obtain ⟨hd, s1, e1, hs⟩ := rd_bind_inv hs
    obtain ⟨fs, s2, e2, hs⟩ := rd_bind_inv hs
    injection hs with hs
    obtain ⟨hs, -⟩ := Prod.mk.inj hs
    cases hs
  unfold readdns
  dsimp only
  by_cases hl : (b.take 4).length ≠ 4
  · rw [if_pos hl]
    rw [List.length_take] at hl
    exact ⟨fun h => (by cases h), fun h => by omega⟩
  · rw [if_neg hl]
    rw [not_not, List.length_take] at hl
    by_cases c1 : 44 ≤ i32Val (decW .little (b.take 4)) ∧ i32Val (decW .little (b.take 4)) ≤ 1644
    · rw [if_pos c1]
      exact ⟨fun h => absurd h (key _ _), fun h => by have := h.2 .little; omega⟩
    · rw [if_neg c1]
      by_cases c2 : 44 ≤ i32Val (decW .big (b.take 4)) ∧ i32Val (decW .big (b.take 4)) ≤ 1644
      · rw [if_pos c2]
        exact ⟨fun h => absurd h (key _ _), fun h => by have := h.2 .big; omega⟩
      · rw [if_neg c2]
        refine ⟨fun _ => ⟨by omega, fun e => ?_⟩, fun _ => rfl⟩
        cases e <;> omega

/-- The sample has three fields of 48 numbers, and 1384 bytes at least. -/
example : ∃ D : Dns (F64 × F64), readdns .little (0, 0) (fun _ _ a b => (a, b)) (fun _ _ f => f) (fun _ _ _ _ _ => (0, 0)) Samples.dnsBytes =
    .ok (some D) ∧ D.fields.length = 3 ∧ 0 < D.head.nx ∧ 4 + 64 + D.fields.length * (8 * (D.head.nx * D.head.ny * D.head.nz)) ≤ Samples.dnsBytes.length := by
  obtain ⟨D, fou, h1, h2, h3, h4, h5, h6⟩ := C92 .little .big ((0 : F64), (0 : F64)) (fun _ _ a b => (a, b)) (fun _ _ f => f)
    (fun _ _ _ _ _ => ((0 : F64), (0 : F64))) Samples.dnsRaw Samples.dnsRaw_ok (.inr (by decide)) (fun k => List.replicate 8 (UInt8.ofNat k))
    (fun _ _ => rfl) [([1, 2, 3, 4].map Flt.ofBits, List.replicate 8 9)] (by decide) (by decide) Samples.dnsLines (fun _ _ => List.replicate 8 5)
    (fun _ _ => rfl) (fun _ _ => rfl) [1, 2, 3]
  have h := C131 _ _ _ _ _ _ D h1
  exact ⟨D, h1, by rw [h5]; rfl, h.2.2.2.1, h.2.2.2.2.2.2⟩

/-- Four bytes of text are no tag. -/
example : readdns .little ((0 : F64), (0 : F64)) (fun _ _ a b => (a, b)) (fun _ _ f => f) (fun _ _ _ _ _ => ((0 : F64), (0 : F64)))
    [35, 115, 116, 100] = .ok none :=
  (C131_none _ _ _ _ _ _).mpr ⟨by decide, fun e => by cases e <;> decide +kernel⟩

/-! ### Planes -/

theorem uses_body2 (e : Endian) (n0 n1 : Nat) (s : Bytes) (P : Plane) (t : Bytes) (h : planeBody2 e n0 n1 s = .ok (P, t)) :
    P.nn = [(n0 : Int), (n1 : Int)] ∧ t.length + 24 * (n0 * n1) ≤ s.length := by
  unfold planeBody2 at h
  obtain ⟨m1, s1, e1, h⟩ := rd_bind_inv h
  obtain ⟨x, s2, e2, h⟩ := rd_bind_inv h
  obtain ⟨m3, s3, e3, h⟩ := rd_bind_inv h
  obtain ⟨m4, s4, e4, h⟩ := rd_bind_inv h
  obtain ⟨y, s5, e5, h⟩ := rd_bind_inv h
  obtain ⟨m6, s6, e6, h⟩ := rd_bind_inv h
  obtain ⟨m7, s7, e7, h⟩ := rd_bind_inv h
  obtain ⟨d, s8, e8, h⟩ := rd_bind_inv h
  injection h with h
  obtain ⟨rfl, rfl⟩ := Prod.mk.inj h
  refine ⟨rfl, ?_⟩
  have u1 := uses_rd 4 _ _ _ e1
  have u2 := uses_rdD e _ _ _ _ e2
  have u3 := uses_rd 4 _ _ _ e3
  have u4 := uses_rd 4 _ _ _ e4
  have u5 := uses_rdD e _ _ _ _ e5
  have u6 := uses_rd 4 _ _ _ e6
  have u7 := uses_rd 4 _ _ _ e7
  have u8 := uses_rdD e _ _ _ _ e8
  omega

/-- **C131** for planes: `readplane` returns data only for two dimensions, and only if all numbers are in the file. -/
theorem C131_plane (b : Bytes) (P : Plane) (h : readplane b = .ok (some P)) :
    ∃ n0 n1 : Nat, P.nn = [(n0 : Int), (n1 : Int)] ∧ 4 + 8 + 24 * (n0 * n1) ≤ b.length := by
  unfold readplane at h
  dsimp only at h
  by_cases hl : (b.take 4).length ≠ 4
  · rw [if_pos hl] at h
    cases h
  · rw [if_neg hl] at h
    have hb : 4 ≤ b.length := by
      rw [not_not, List.length_take] at hl
      omega
    generalize (if i32Val (decW .little (b.take 4)) ≤ 1000 then Endian.little else .big) = e at h
    generalize (i32Val (decW e (b.take 4))).tdiv 4 = nd at h
    rcases rd_any (planeBody e nd) (b.drop 4) with ⟨r, s, hs⟩ | ⟨err, hs⟩
    · rw [hs] at h
      injection h with h
      dsimp only at h
      subst h
      unfold planeBody at hs
      obtain ⟨nn, s1, e1, hs⟩ := rd_bind_inv hs
      obtain ⟨m, s2, e2, hs⟩ := rd_bind_inv hs
      have u1 := (Uses.mapM (List.range nd.toNat) _ fun _ => uses_rdI e) _ _ _ e1
      have u2 := uses_rd 4 _ _ _ e2
      rw [List.length_range, List.length_drop] at u1
      by_cases h2 : nd = 2
      · rw [if_pos h2] at hs
        by_cases hn : nn.getD 0 0 < 0 ∨ nn.getD 1 0 < 0
        · rw [if_pos hn] at hs
          cases hs
        · rw [if_neg hn] at hs
          obtain ⟨p, s3, e3, hs⟩ := rd_bind_inv hs
          injection hs with hs
          obtain ⟨hs, -⟩ := Prod.mk.inj hs
          injection hs with hs
          subst hs
          obtain ⟨a1, a2⟩ := uses_body2 _ _ _ _ _ _ e3
          refine ⟨_, _, a1, ?_⟩
          rw [h2] at u1
          have : (2 : Int).toNat * 4 = 8 := rfl
          omega
      · rw [if_neg h2] at hs
        by_cases h3 : nd = 1 ∨ nd = 3
        · rw [if_pos h3] at hs
          by_cases hn : nn.any (fun n => decide (n < 0)) = true
          · rw [if_pos hn] at hs
            cases hs
          · rw [if_neg hn] at hs
            obtain ⟨m3, s3, e3, hs⟩ := rd_bind_inv hs
            cases hs
        · rw [if_neg h3] at hs
          injection hs with hs
          obtain ⟨hs, -⟩ := Prod.mk.inj hs
          cases hs
    · rw [hs] at h
      cases h

example : ∃ P : Plane, readplane Samples.plane = .ok (some P) ∧ ∃ n0 n1 : Nat, P.nn = [(n0 : Int), (n1 : Int)] ∧
    4 + 8 + 24 * (n0 * n1) ≤ Samples.plane.length := by
  obtain ⟨P, h1, -, -⟩ := C28 .big 3 2 (by decide) (by decide) (fun i j => Flt.ofBits (1000 + 10 * i + j))
    (fun i j => Flt.ofBits (2000 + 10 * i + j)) (fun i j => Flt.ofBits (3000 + 10 * i + j)) (fun k => [0, 1, 2, UInt8.ofNat k]) (fun _ _ => rfl)
  exact ⟨P, h1, C131_plane _ P h1⟩

end Pymech
