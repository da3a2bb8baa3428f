import Verif.IO.SimsonFft
import Verif.Props.Simson

/-!
# SIMSON velocity files: C92
-/

set_option autoImplicit false

namespace Pymech

namespace Spec

/-- The numbers in the header of a velocity file. -/
structure DnsRaw where
  re : F64
  flag : Int
  boxX : F64
  boxZ : F64
  time : F64
  pad : Bytes
  nx : Nat
  ny : Nat
  nz : Nat
  sym : Int
  fltype : Int
  dstar : F64

/-- How many numbers the records have that follow the header, for every type of flow. -/
def flowRecords (fltype : Int) : List Nat :=
  if fltype = -1 then [1]
  else if fltype = -2 then [2]
  else if fltype = 4 ∨ fltype = 5 then [2, 4]
  else if 6 ≤ fltype ∧ fltype ≤ 9 then [4]
  else if fltype = 20 ∨ fltype = -20 then [0]
  else []

/-- A velocity file without scalars. The numbers of a record are surrounded by marks of four bytes; `mark`, `flow` and `m` have
the eight bytes between two records. `L c t` is the line of component `c` for spanwise and wall-normal index `t`. -/
def dnsFile (e : Endian) (H : DnsRaw) (mark : Nat → Bytes) (flow : List (List F64 × Bytes)) (L : Nat → Nat × Nat → List F64)
    (m : Nat → Nat × Nat → Bytes) (rest : Bytes) : Bytes :=
  encW e 4 44 ++ (dbls e [H.re] ++ (encW e 4 (i32Bits H.flag) ++ (dbls e [H.boxX, H.boxZ] ++ (dbls e [H.time] ++ (H.pad ++ (mark 0 ++
    (encW e 4 H.nx ++ (encW e 4 H.ny ++ (encW e 4 H.nz ++ (encW e 4 (i32Bits H.sym) ++ (mark 1 ++
      (encW e 4 (i32Bits H.fltype) ++ (dbls e [H.dstar] ++ (mark 2 ++
        (flow.flatMap (fun p => dbls e p.1 ++ p.2) ++
          (planesFile e H.nz H.ny (L 0) (m 0) ++ (planesFile e H.nz H.ny (L 1) (m 1) ++ (planesFile e H.nz H.ny (L 2) (m 2) ++ rest))))))))))))))))))

/-- The file can be what it says. -/
structure DnsRaw.Ok (H : DnsRaw) : Prop where
  flag : -2 ^ 31 ≤ H.flag ∧ H.flag < 2 ^ 31
  sym : -2 ^ 31 ≤ H.sym ∧ H.sym < 2 ^ 31
  fltype : -2 ^ 31 ≤ H.fltype ∧ H.fltype < 2 ^ 31
  pad : H.pad.length = 8
  nx : 0 < H.nx ∧ H.nx < 2 ^ 31
  ny : H.ny < 2 ^ 31
  nz : 0 < H.nz ∧ H.nz < 2 ^ 31
  dstar : H.dstar.mag ≠ 0

/-- The plane whose coefficients `readdns` has in a slot: the first half as they come, the second half in the opposite order
and one slot too low, so that nothing is left for the last slot. -/
def source (nz z : Nat) : Option Nat :=
  if nz ≤ 2 ∨ z < nz / 2 then some z
  else if z + 1 = nz then none
  else some (3 * (nz / 2) - 1 - z)

end Spec

open Spec

theorem rdD1_app (e : Endian) (x : F64) (r : Bytes) : rdD1 e (dbls e [x] ++ r) = .ok (x, r) := by
  unfold rdD1
  rw [rd_bind (rdD_app e [x] 1 rfl r)]
  rfl

theorem dbls_cons (e : Endian) (x : F64) (l : List F64) : dbls e (x :: l) = dbls e [x] ++ dbls e l := by
  unfold dbls
  simp

theorem rdD1_cons (e : Endian) (x : F64) (l : List F64) (r : Bytes) : rdD1 e (dbls e (x :: l) ++ r) = .ok (x, dbls e l ++ r) := by
  rw [dbls_cons, List.append_assoc, rdD1_app]

theorem dbls_nil (e : Endian) : dbls e [] = [] := rfl

theorem map_length_one {α β : Type} {f : α → β} {l : List α} {a : β} (h : l.map f = [a]) : ∃ p, l = [p] ∧ f p = a := by
  match l, h with
  | [p], h => exact ⟨p, rfl, by simpa using h⟩

theorem map_length_two {α β : Type} {f : α → β} {l : List α} {a b : β} (h : l.map f = [a, b]) : ∃ p q, l = [p, q] ∧ f p = a ∧ f q = b := by
  match l, h with
  | [p, q], h => exact ⟨p, q, rfl, by simpa using h⟩

/-- The records that depend on the type of the flow are passed over. -/
theorem dnsFlow_app (e : Endian) (fltype : Int) (flow : List (List F64 × Bytes)) (hf : flow.map (fun p => p.1.length) = flowRecords fltype)
    (hm : ∀ p ∈ flow, p.2.length = 8) (r : Bytes) : dnsFlow e 0 fltype (flow.flatMap (fun p => dbls e p.1 ++ p.2) ++ r) = .ok ((), r) := by
  unfold flowRecords at hf
  unfold dnsFlow
  by_cases h1 : fltype = -1
  · rw [if_pos h1] at hf
    obtain ⟨⟨l, q⟩, rfl, hl⟩ := map_length_one hf
    obtain ⟨a, rfl⟩ := List.length_eq_one_iff.mp hl
    have hq : q.length = 8 := hm _ List.mem_cons_self
    subst h1
    simp only [List.flatMap_cons, List.flatMap_nil, List.append_nil, List.append_assoc, if_true]
    rw [rd_bind (rdD1_app e a _), rd_bind (rd_app hq _)]
    rfl
  rw [if_neg h1] at hf
  by_cases h2 : fltype = -2
  · rw [if_pos h2] at hf
    obtain ⟨⟨l, q⟩, rfl, hl⟩ := map_length_one hf
    obtain ⟨a, b, rfl⟩ := List.length_eq_two.mp hl
    have hq : q.length = 8 := hm _ List.mem_cons_self
    subst h2
    simp only [List.flatMap_cons, List.flatMap_nil, List.append_nil, List.append_assoc, if_true]
    rw [if_neg (by decide), rd_bind (rdD1_cons e a _ _), rd_bind (rdD1_app e b _), rd_bind (rd_app hq _)]
    rfl
  rw [if_neg h2] at hf
  by_cases h3 : fltype = 4 ∨ fltype = 5
  · rw [if_pos h3] at hf
    obtain ⟨⟨l, q⟩, ⟨l', q'⟩, rfl, hl, hl'⟩ := map_length_two hf
    obtain ⟨a, b, rfl⟩ := List.length_eq_two.mp hl
    have hq : q.length = 8 := hm (_, q) List.mem_cons_self
    have hq' : q'.length = 8 := hm (_, q') (List.mem_cons_of_mem _ List.mem_cons_self)
    obtain ⟨a', b', c', d', rfl⟩ : ∃ a b c d, l' = [a, b, c, d] := by
      match l', hl' with
      | [a, b, c, d], _ => exact ⟨a, b, c, d, rfl⟩
    simp only [List.flatMap_cons, List.flatMap_nil, List.append_nil, List.append_assoc]
    rw [if_neg h1, if_neg h2, if_pos h3, rd_bind (rdD1_cons e a _ _), rd_bind (rdD1_app e b _), rd_bind (rd_app hq _)]
    rw [if_pos (by omega), rd_bind (rdD1_cons e _ _ _), rd_bind (rdD1_cons e _ _ _), rd_bind (rdD1_cons e _ _ _), rd_bind (rdD1_app e _ _),
      rd_bind (rd_app hq' _), if_neg (by omega)]
    rfl
  rw [if_neg h3] at hf
  by_cases h4 : 6 ≤ fltype ∧ fltype ≤ 9
  · rw [if_pos h4] at hf
    obtain ⟨⟨l', q'⟩, rfl, hl'⟩ := map_length_one hf
    have hq' : q'.length = 8 := hm (_, q') List.mem_cons_self
    obtain ⟨a', b', c', d', rfl⟩ : ∃ a b c d, l' = [a, b, c, d] := by
      match l', hl' with
      | [a, b, c, d], _ => exact ⟨a, b, c, d, rfl⟩
    simp only [List.flatMap_cons, List.flatMap_nil, List.append_nil, List.append_assoc]
    rw [if_neg h1, if_neg h2, if_neg h3]
    rw [if_pos (by omega), rd_bind (rdD1_cons e _ _ _), rd_bind (rdD1_cons e _ _ _), rd_bind (rdD1_cons e _ _ _), rd_bind (rdD1_app e _ _),
      rd_bind (rd_app hq' _), if_neg (by omega)]
    rfl
  rw [if_neg h4] at hf
  rw [if_neg h1, if_neg h2, if_neg h3, if_neg (by omega)]
  by_cases h5 : fltype = 20 ∨ fltype = -20
  · rw [if_pos h5] at hf
    obtain ⟨⟨l', q'⟩, rfl, hl'⟩ := map_length_one hf
    have hq' : q'.length = 8 := hm (_, q') List.mem_cons_self
    obtain rfl := List.length_eq_zero_iff.mp hl'
    simp only [List.flatMap_cons, List.flatMap_nil, List.append_nil, List.append_assoc]
    rw [if_pos (by omega), rd_bind (rdD_app e [] 0 rfl _), rd_bind (rd_app hq' _)]
    rfl
  · rw [if_neg h5, List.map_eq_nil_iff] at hf
    subst hf
    rw [if_neg (by omega)]
    rfl

/-- What the header becomes. -/
def Spec.DnsRaw.head (H : DnsRaw) : DnsHead := ⟨H.re, H.boxX, H.boxZ, H.time, H.nx, H.ny, H.nz, H.fltype, H.dstar⟩

/-- The header is read. -/
theorem dnsHead_app (native e : Endian) (H : DnsRaw) (hH : H.Ok) (mark : Nat → Bytes) (hmark : ∀ k < 3, (mark k).length = 8)
    (flow : List (List F64 × Bytes)) (hf : flow.map (fun p => p.1.length) = flowRecords H.fltype)
    (hm : ∀ p ∈ flow, p.2.length = 8) (r : Bytes) :
    dnsHead native e 0 (dbls e [H.re] ++ (encW e 4 (i32Bits H.flag) ++ (dbls e [H.boxX, H.boxZ] ++ (dbls e [H.time] ++ (H.pad ++ (mark 0 ++
    (encW e 4 H.nx ++ (encW e 4 H.ny ++ (encW e 4 H.nz ++ (encW e 4 (i32Bits H.sym) ++ (mark 1 ++
      (encW e 4 (i32Bits H.fltype) ++ (dbls e [H.dstar] ++ (mark 2 ++
        (flow.flatMap (fun p => dbls e p.1 ++ p.2) ++ r))))))))))))))) = .ok (H.head, r) := by
  unfold dnsHead
  have hz : ∀ s, ((List.range 0).mapM fun _ => dnsScalar native e : Rd (List (F64 × F64))) s = .ok ([], s) := fun s => rfl
  rw [rd_bind (rdD1_app e _ _), rd_bind (rdI_app e _ hH.flag.1 hH.flag.2 _), rd_bind (rdD_app e _ 2 rfl _), rd_bind (rdD1_app e _ _),
    rd_bind (rd_app hH.pad _), rd_bind (hz _), rd_bind (rd_app (hmark 0 (by omega)) _), rd_bind (rdI_nat e _ hH.nx.2 _),
    rd_bind (rdI_nat e _ hH.ny _), rd_bind (rdI_nat e _ hH.nz.2 _), rd_bind (rdI_app e _ hH.sym.1 hH.sym.2 _),
    rd_bind (rd_app (hmark 1 (by omega)) _), rd_bind (rdI_app e _ hH.fltype.1 hH.fltype.2 _), rd_bind (rdD1_app e _ _), if_neg hH.dstar,
    rd_bind (rd_app (hmark 2 (by omega)) _), rd_bind (dnsFlow_app e _ flow hf hm _), if_neg (by omega), if_neg (by have := hH.nx.1; have := hH.nz.1; omega)]
  rfl

/-- The buffer after one component, slot by slot. -/
theorem put_source {C : Type} (nx ny nz : Nat) (hn : nz = 1 ∨ Even nz) (coef : F64 → F64 → C) (L : Nat × Nat → List F64) (fou : Nat → Nat → Nat → C)
    (z y x : Nat) (hz : z < nz) (hy : y < ny) :
    (prod2 (List.range nz) (List.range ny)).foldl (putLine nx nz coef L) fou z y x =
      match source nz z with
      | some i => if x < nx / 2 then coef ((L (i, y)).getD (2 * x) 0) ((L (i, y)).getD (2 * x + 1) 0) else fou z y x
      | none => fou z y x := by
  have hs : ∀ i, source nz z = some i → i < nz ∧ slot nz i = z ∧ ∀ k, i < k → k < nz → slot nz k ≠ slot nz i := by
    intro i hi
    unfold source at hi
    unfold slot
    rcases hn with rfl | ⟨k, rfl⟩
    · rw [if_pos (by omega), Option.some.injEq] at hi
      refine ⟨by omega, ?_, fun k _ _ => by omega⟩
      rw [if_pos (by omega), hi]
    · split at hi
      · rw [Option.some.injEq] at hi
        refine ⟨by omega, by split_ifs <;> omega, fun j _ _ => by split_ifs <;> omega⟩
      · split at hi
        · cases hi
        · rw [Option.some.injEq] at hi
          refine ⟨by omega, by split_ifs <;> omega, fun j _ _ => by split_ifs <;> omega⟩
  have hno : source nz z = none → ∀ k < nz, slot nz k ≠ z := by
    intro hi k hk
    unfold source at hi
    unfold slot
    rcases hn with rfl | ⟨j, rfl⟩
    · rw [if_pos (by omega)] at hi
      cases hi
    · split at hi
      · cases hi
      · split at hi
        · split_ifs <;> omega
        · cases hi
  cases h : source nz z with
  | none =>
    refine foldl_put_none _ _ _ _ _ _ _ _ _ fun t ht h1 _ => ?_
    rw [mem_prod2] at ht
    exact absurd h1 (hno h _ (List.mem_range.mp ht.1))
  | some i =>
    obtain ⟨h1, h2, h3⟩ := hs i h
    simp only
    split
    · next hx =>
      have := foldl_put_last nx ny nz coef L fou i y x h1 hy hx h3
      rwa [h2] at this
    · next hx => exact foldl_put_none _ _ _ _ _ _ _ _ _ fun t _ _ _ => hx

theorem dnsFous_cons {C : Type} {e : Endian} {nx ny nz : Nat} {coef : Nat → F64 → F64 → C} {c : Nat} {cs : List Nat}
    {fou f : Nat → Nat → Nat → C} {l : List (Nat → Nat → Nat → C)} {s s' s'' : Bytes} (h1 : dnsFou e nx ny nz (coef c) fou s = .ok (f, s'))
    (h2 : dnsFous e nx ny nz coef cs f s' = .ok (l, s'')) : dnsFous e nx ny nz coef (c :: cs) fou s = .ok (f :: l, s'') := by
  rw [dnsFous, rd_bind h1, rd_bind h2]
  rfl

/-- **C92**: a velocity file without scalars is decoded: the header, and for every component and slot the coefficients of the
plane that `source` names, zero where there is none and in the last place of every line. -/
theorem C92 {C V : Type} (native e : Endian) (zero : C) (coef : Nat → Nat → F64 → F64 → C)
    (ift : Nat → Nat → (Nat → Nat → Nat → C) → Nat → Nat → Nat → V) (crd : DnsHead → Nat → Nat → Nat → Nat → V)
    (H : DnsRaw) (hH : H.Ok) (hn : H.nz = 1 ∨ Even H.nz) (mark : Nat → Bytes) (hmark : ∀ k < 3, (mark k).length = 8)
    (flow : List (List F64 × Bytes)) (hf : flow.map (fun p => p.1.length) = flowRecords H.fltype) (hm : ∀ p ∈ flow, p.2.length = 8)
    (L : Nat → Nat × Nat → List F64) (m : Nat → Nat × Nat → Bytes) (hL : ∀ c t, (L c t).length = H.nx) (hmm : ∀ c t, (m c t).length = 8)
    (rest : Bytes) :
    ∃ D : Dns V, ∃ fou : Nat → Nat → Nat → Nat → C, readdns native zero coef ift crd (dnsFile e H mark flow L m rest) = .ok (some D) ∧
      D.head = ⟨H.re, H.boxX, H.boxZ, H.time, H.nx, H.ny, H.nz, H.fltype, H.dstar⟩ ∧ D.endian = e ∧ D.pos = crd D.head ∧
      D.fields = [ift H.nx H.nz (fou 0), ift H.nx H.nz (fou 1), ift H.nx H.nz (fou 2)] ∧
      ∀ c < 3, ∀ z < H.nz, ∀ y < H.ny,
        (∀ x < H.nx / 2, fou c z y x = match source H.nz z with
          | some i => coef (H.nx * H.nz) c ((L c (i, y)).getD (2 * x) 0) ((L c (i, y)).getD (2 * x + 1) 0)
          | none => zero) ∧
        fou c z y (H.nx / 2) = zero := by
  let f0 := (prod2 (List.range H.nz) (List.range H.ny)).foldl (putLine H.nx H.nz (coef (H.nx * H.nz) 0) (L 0)) fun _ _ _ => zero
  let f1 := (prod2 (List.range H.nz) (List.range H.ny)).foldl (putLine H.nx H.nz (coef (H.nx * H.nz) 1) (L 1)) f0
  let f2 := (prod2 (List.range H.nz) (List.range H.ny)).foldl (putLine H.nx H.nz (coef (H.nx * H.nz) 2) (L 2)) f1
  have hgo : (do
        let h ← dnsHead native e 0
        let fous ← dnsFous e h.nx h.ny h.nz (coef (h.nx * h.nz)) (List.range (3 + 0)) fun _ _ _ => zero
        pure (some ⟨h, e, crd h, fous.map (ift h.nx h.nz)⟩) : Rd (Option (Dns V)))
      ((dnsFile e H mark flow L m rest).drop 4) = .ok (some ⟨H.head, e, crd H.head, [f0, f1, f2].map (ift H.nx H.nz)⟩, rest) := by
    unfold dnsFile
    rw [List.drop_left' (encW_length _ _ _), rd_bind (dnsHead_app native e H hH mark hmark flow hf hm _)]
    have hr : List.range (3 + 0) = [0, 1, 2] := rfl
    have hfs : dnsFous e H.nx H.ny H.nz (coef (H.nx * H.nz)) [0, 1, 2] (fun _ _ _ => zero)
        (planesFile e H.nz H.ny (L 0) (m 0) ++ (planesFile e H.nz H.ny (L 1) (m 1) ++ (planesFile e H.nz H.ny (L 2) (m 2) ++ rest))) =
        .ok ([f0, f1, f2], rest) := by
      exact dnsFous_cons (dnsFou_planes e _ _ _ _ _ (L 0) (m 0) (hL 0) (hmm 0) _)
        (dnsFous_cons (dnsFou_planes e _ _ _ _ _ (L 1) (m 1) (hL 1) (hmm 1) _)
          (dnsFous_cons (dnsFou_planes e _ _ _ _ _ (L 2) (m 2) (hL 2) (hmm 2) _) rfl))
    rw [hr]
    exact rd_bind hfs
  have hread : readdns native zero coef ift crd (dnsFile e H mark flow L m rest) =
      .ok (some ⟨H.head, e, crd H.head, [f0, f1, f2].map (ift H.nx H.nz)⟩) := by
    obtain ⟨⟨ha, hb⟩, hc, hd⟩ := dns_tag e 0 (by omega)
    have ht : (dnsFile e H mark flow L m rest).take 4 = encW e 4 (44 + 16 * 0) := List.take_left' (encW_length _ _ _)
    unfold readdns
    simp only
    rw [ht, if_neg (by rw [encW_length]; decide)]
    cases e with
    | little =>
      rw [if_pos ⟨ha, hb⟩, hc, hgo]
      rfl
    | big =>
      rw [if_neg (hd rfl), if_pos ⟨ha, hb⟩, hc, hgo]
      rfl
  have hp0 := put_source H.nx H.ny H.nz hn (coef (H.nx * H.nz) 0) (L 0) (fun _ _ _ => zero)
  have hp1 := put_source H.nx H.ny H.nz hn (coef (H.nx * H.nz) 1) (L 1) f0
  have hp2 := put_source H.nx H.ny H.nz hn (coef (H.nx * H.nz) 2) (L 2) f1
  refine ⟨_, fun c => if c = 0 then f0 else if c = 1 then f1 else f2, hread, rfl, rfl, rfl, rfl, ?_⟩
  have h0 : ∀ z < H.nz, ∀ y < H.ny, ∀ x, (source H.nz z = none ∨ ¬ x < H.nx / 2) → f0 z y x = zero := by
    intro z hz y hy x h
    refine (hp0 z y x hz hy).trans ?_
    rcases h with h | h
    · rw [h]
    · cases source H.nz z with
      | none => rfl
      | some i => exact if_neg h
  have h1 : ∀ z < H.nz, ∀ y < H.ny, ∀ x, (source H.nz z = none ∨ ¬ x < H.nx / 2) → f1 z y x = zero := by
    intro z hz y hy x h
    refine (hp1 z y x hz hy).trans ?_
    have h' := h0 z hz y hy x h
    rcases h with h | h
    · rw [h]; exact h'
    · cases source H.nz z with
      | none => exact h'
      | some i => exact (if_neg h).trans h'
  have h2 : ∀ z < H.nz, ∀ y < H.ny, ∀ x, (source H.nz z = none ∨ ¬ x < H.nx / 2) → f2 z y x = zero := by
    intro z hz y hy x h
    refine (hp2 z y x hz hy).trans ?_
    have h' := h1 z hz y hy x h
    rcases h with h | h
    · rw [h]; exact h'
    · cases source H.nz z with
      | none => exact h'
      | some i => exact (if_neg h).trans h'
  intro c hc z hz y hy
  have hc' : c = 0 ∨ c = 1 ∨ c = 2 := by omega
  constructor
  · intro x hx
    cases hs : source H.nz z with
    | none => rcases hc' with rfl | rfl | rfl <;> simp [h0 z hz y hy x (.inl hs), h1 z hz y hy x (.inl hs), h2 z hz y hy x (.inl hs)]
    | some i =>
      rcases hc' with rfl | rfl | rfl
      · have := hp0 z y x hz hy
        rw [hs] at this
        exact this.trans (if_pos hx)
      · have := hp1 z y x hz hy
        rw [hs] at this
        exact this.trans (if_pos hx)
      · have := hp2 z y x hz hy
        rw [hs] at this
        exact this.trans (if_pos hx)
  · rcases hc' with rfl | rfl | rfl
    · exact h0 z hz y hy _ (.inr (by omega))
    · exact h1 z hz y hy _ (.inr (by omega))
    · exact h2 z hz y hy _ (.inr (by omega))

namespace Samples

/-- A header: 4 × 3 × 4 points, flow type 6. -/
def dnsRaw : DnsRaw := ⟨Flt.ofBits 11, 0, Flt.ofBits 12, Flt.ofBits 13, Flt.ofBits 14, List.replicate 8 7, 4, 3, 4, -1, 6, Flt.ofBits 15⟩

theorem dnsRaw_ok : dnsRaw.Ok := ⟨by decide, by decide, by decide, by decide, by decide, by decide, by decide, by decide +kernel⟩

/-- Numbers that tell where they are. -/
def dnsLines (c : Nat) (t : Nat × Nat) : List F64 := (List.range 4).map fun x => Flt.ofBits (1000 * c + 100 * t.1 + 10 * t.2 + x)

def dnsBytes : Bytes :=
  dnsFile .big dnsRaw (fun k => List.replicate 8 (UInt8.ofNat k)) [([1, 2, 3, 4].map Flt.ofBits, List.replicate 8 9)] dnsLines
    (fun _ _ => List.replicate 8 5) [1, 2, 3]

example : ∃ D : Dns (F64 × F64), readdns .little (0, 0) (fun _ _ a b => (a, b)) (fun _ _ f => f) (fun _ _ _ _ _ => (0, 0)) dnsBytes = .ok (some D) ∧
    D.head.time = Flt.ofBits 14 ∧ D.head.nx = 4 ∧ D.head.ny = 3 ∧ D.head.nz = 4 ∧ D.endian = .big ∧ D.fields.length = 3 ∧
    ∃ f, D.fields[1]? = some f ∧ f 1 2 1 = (Flt.ofBits 1122, Flt.ofBits 1123) ∧ f 2 0 0 = (Flt.ofBits 1300, Flt.ofBits 1301) ∧ f 3 0 0 = (0, 0) := by
  obtain ⟨D, fou, h1, h2, h3, h4, h5, h6⟩ := C92 .little .big ((0 : F64), (0 : F64)) (fun _ _ a b => (a, b)) (fun _ _ f => f)
    (fun _ _ _ _ _ => ((0 : F64), (0 : F64))) dnsRaw dnsRaw_ok (.inr (by decide)) (fun k => List.replicate 8 (UInt8.ofNat k)) (fun _ _ => rfl)
    [([1, 2, 3, 4].map Flt.ofBits, List.replicate 8 9)] (by decide) (by decide) dnsLines (fun _ _ => List.replicate 8 5) (fun _ _ => rfl)
    (fun _ _ => rfl) [1, 2, 3]
  refine ⟨D, h1, by rw [h2]; rfl, by rw [h2]; rfl, by rw [h2]; rfl, by rw [h2]; rfl, h3, by rw [h5]; rfl, fou 1, by rw [h5]; rfl, ?_, ?_, ?_⟩
  · exact (h6 1 (by decide) 1 (by decide) 2 (by decide)).1 1 (by decide)
  · exact (h6 1 (by decide) 2 (by decide) 0 (by decide)).1 0 (by decide)
  · exact (h6 1 (by decide) 3 (by decide) 0 (by decide)).1 0 (by decide)

end Samples

end Pymech
