import Verif.Props.Dns

/-!
# Truncated SIMSON files: C122
-/

set_option autoImplicit false

namespace Pymech

open Spec

/-- What is read from a file is read from every longer file as well, and the same number of bytes is taken from both. -/
def Keeps {α : Type} (x : Rd α) : Prop := ∀ s' s, s' <+: s → ∀ a t', x s' = .ok (a, t') → ∃ k, t' = s'.drop k ∧ x s = .ok (a, s.drop k)

/-- The same, unless everything was read. -/
def KeepsOr {α : Type} (x : Rd α) : Prop :=
  ∀ s' s, s' <+: s → ∀ a t', x s' = .ok (a, t') → t' = [] ∨ ∃ k, t' = s'.drop k ∧ x s = .ok (a, s.drop k)

/-- All but the last `w` bytes that are taken have to be there. -/
def Ends {α : Type} (w : Nat) (x : Rd α) : Prop :=
  ∀ s' s, s' <+: s → ∀ a t', x s' = .ok (a, t') → ∃ k, 0 < k ∧ k ≤ s'.length ∧ t' = s'.drop (k + w) ∧ x s = .ok (a, s.drop (k + w))

/-- Nothing can be read from an empty file. -/
def Fails {α : Type} (x : Rd α) : Prop := ∀ a t, x [] ≠ .ok (a, t)

theorem rd_bind_inv {α β : Type} {x : Rd α} {k : α → Rd β} {s : Bytes} {b : β} {t : Bytes} (h : (x >>= k) s = .ok (b, t)) :
    ∃ a u, x s = .ok (a, u) ∧ k a u = .ok (b, t) := by
  rcases rd_any x s with ⟨a, u, e⟩ | ⟨err, e⟩
  · rw [rd_bind e] at h
    exact ⟨a, u, e, h⟩
  · rw [rd_bind_err e] at h
    cases h

theorem prefix_drop {s' s : Bytes} (h : s' <+: s) (n : Nat) : s'.drop n <+: s.drop n := by
  obtain ⟨r, rfl⟩ := h
  rw [List.drop_append]
  exact List.prefix_append _ _

theorem prefix_take {s' s : Bytes} (h : s' <+: s) (n : Nat) (hn : (s'.take n).length = n) : s.take n = s'.take n := by
  obtain ⟨r, rfl⟩ := h
  rw [List.length_take] at hn
  rw [List.take_append_of_le_length (by omega)]

theorem Keeps.bind {α β : Type} {x : Rd α} {k : α → Rd β} (hx : Keeps x) (hk : ∀ a, Keeps (k a)) : Keeps (x >>= k) := by
  intro s' s hs b t' h
  obtain ⟨a, u', e, e'⟩ := rd_bind_inv h
  obtain ⟨i, rfl, f⟩ := hx s' s hs a u' e
  obtain ⟨j, rfl, g⟩ := hk a _ _ (prefix_drop hs i) b t' e'
  exact ⟨i + j, by rw [List.drop_drop], by rw [rd_bind f, g, List.drop_drop]⟩

theorem KeepsOr.bind {α β : Type} {x : Rd α} {k : α → Rd β} (hx : KeepsOr x) (hf : ∀ a, Fails (k a)) (hk : ∀ a, Keeps (k a)) :
    Keeps (x >>= k) := by
  intro s' s hs b t' h
  obtain ⟨a, u', e, e'⟩ := rd_bind_inv h
  rcases hx s' s hs a u' e with rfl | ⟨i, rfl, f⟩
  · exact absurd e' (hf a b t')
  · obtain ⟨j, rfl, g⟩ := hk a _ _ (prefix_drop hs i) b t' e'
    exact ⟨i + j, by rw [List.drop_drop], by rw [rd_bind f, g, List.drop_drop]⟩

theorem Ends.bind {α β : Type} {w : Nat} {x : Rd α} {k : α → Rd β} (hx : Keeps x) (hk : ∀ a, Ends w (k a)) : Ends w (x >>= k) := by
  intro s' s hs b t' h
  obtain ⟨a, u', e, e'⟩ := rd_bind_inv h
  obtain ⟨i, rfl, f⟩ := hx s' s hs a u' e
  obtain ⟨j, h0, hj, rfl, g⟩ := hk a _ _ (prefix_drop hs i) b t' e'
  rw [List.length_drop] at hj
  exact ⟨i + j, by omega, by omega, by rw [List.drop_drop, Nat.add_assoc], by rw [rd_bind f, g, List.drop_drop, Nat.add_assoc]⟩

theorem Ends.map {α β : Type} {w : Nat} {x : Rd α} {f : α → β} (hx : Ends w x) : Ends w (x >>= fun a => pure (f a)) := by
  intro s' s hs b t' h
  obtain ⟨a, u', e, e'⟩ := rd_bind_inv h
  obtain ⟨j, h0, hj, rfl, g⟩ := hx _ _ hs a u' e
  cases e'
  exact ⟨j, h0, hj, rfl, by rw [rd_bind g]; rfl⟩

theorem Ends.keeps {α : Type} {w : Nat} {x : Rd α} (hx : Ends w x) : Keeps x := by
  intro s' s hs b t' h
  obtain ⟨j, -, -, h1, h2⟩ := hx _ _ hs b t' h
  exact ⟨_, h1, h2⟩

theorem Keeps.pure {α : Type} (a : α) : Keeps (pure a : Rd α) := by
  intro s' s hs b t' h
  cases h
  exact ⟨0, rfl, rfl⟩

theorem Keeps.of {α : Type} (p : Py α) : Keeps (Rd.of p) := by
  intro s' s hs b t' h
  cases p with
  | error e => cases h
  | ok a => cases h; exact ⟨0, rfl, rfl⟩

/-- Bytes that are not used. -/
theorem Keeps.skip {α : Type} (n : Nat) {k : Rd α} (hk : Keeps k) : Keeps (do let _ ← rd n; k) := by
  intro s' s hs b t' h
  rw [rd_bind (show rd n s' = .ok (s'.take n, s'.drop n) from rfl)] at h
  rw [rd_bind (show rd n s = .ok (s.take n, s.drop n) from rfl)]
  obtain ⟨j, rfl, g⟩ := hk _ _ (prefix_drop hs n) b t' h
  exact ⟨n + j, by rw [List.drop_drop], by rw [g, List.drop_drop]⟩

theorem Ends.skip {α : Type} {w : Nat} (n : Nat) {k : Rd α} (hk : Ends w k) : Ends w (do let _ ← rd n; k) := by
  intro s' s hs b t' h
  rw [rd_bind (show rd n s' = .ok (s'.take n, s'.drop n) from rfl)] at h
  rw [rd_bind (show rd n s = .ok (s.take n, s.drop n) from rfl)]
  obtain ⟨j, j0, j1, rfl, g⟩ := hk _ _ (prefix_drop hs n) b t' h
  rw [List.length_drop] at j1
  exact ⟨n + j, by omega, by omega, by rw [List.drop_drop, Nat.add_assoc], by rw [g, List.drop_drop, Nat.add_assoc]⟩

theorem Fails.skip {α : Type} (n : Nat) {k : Rd α} (hk : Fails k) : Fails (do let _ ← rd n; k) := by
  intro b t h
  rw [rd_bind (show rd n [] = .ok ([].take n, [].drop n) from rfl), List.drop_nil] at h
  exact hk b t h

theorem Fails.bind {α β : Type} {x : Rd α} {k : α → Rd β} (hx : Fails x) : Fails (x >>= k) := by
  intro b t h
  obtain ⟨a, u, e, -⟩ := rd_bind_inv h
  exact hx a u e

/-- A value of `n` bytes. -/
theorem Keeps.value {α : Type} (n : Nat) (p : Bytes → Py α) (hp : ∀ b a, p b = .ok a → b.length = n) : Keeps (do let b ← rd n; Rd.of (p b)) := by
  intro s' s hs b t' h
  rw [rd_bind (show rd n s' = .ok (s'.take n, s'.drop n) from rfl)] at h
  rw [rd_bind (show rd n s = .ok (s.take n, s.drop n) from rfl)]
  cases e : p (s'.take n) with
  | error => rw [e] at h; cases h
  | ok a =>
    rw [e] at h
    rw [prefix_take hs n (hp _ _ e), e]
    cases h
    exact ⟨n, rfl, rfl⟩

theorem unpackI_length {e : Endian} (b : Bytes) (a : Int) (h : unpackI e b = .ok a) : b.length = 4 := by
  unfold unpackI at h
  split at h
  · assumption
  · cases h

theorem unpackD_length {e : Endian} {n : Nat} (b : Bytes) (a : List F64) (h : unpackD e n b = .ok a) : b.length = 8 * n := by
  unfold unpackD at h
  split at h
  · assumption
  · cases h

theorem keeps_rdI (e : Endian) : Keeps (rdI e) := Keeps.value 4 _ unpackI_length

theorem keeps_rdD (e : Endian) (n : Nat) : Keeps (rdD e n) := Keeps.value (8 * n) _ unpackD_length

/-- Doubles at the end of what is read. -/
theorem ends_rdD (e : Endian) (n : Nat) (hn : 0 < n) : Ends 0 (rdD e n) := by
  intro s' s hs b t' h
  obtain ⟨k, h1, h2⟩ := keeps_rdD e n s' s hs b t' h
  unfold rdD at h h2
  rw [rd_bind (show rd (8 * n) s' = .ok (s'.take (8 * n), s'.drop (8 * n)) from rfl)] at h
  rw [rd_bind (show rd (8 * n) s = .ok (s.take (8 * n), s.drop (8 * n)) from rfl)] at h2
  cases e1 : unpackD e n (s'.take (8 * n)) with
  | error => rw [e1] at h; cases h
  | ok a =>
    have hl := unpackD_length _ _ e1
    rw [e1] at h
    cases h
    rw [prefix_take hs _ hl, e1] at h2
    rw [List.length_take] at hl
    refine ⟨8 * n, by omega, by omega, rfl, ?_⟩
    unfold rdD
    rw [rd_bind (show rd (8 * n) s = .ok (s.take (8 * n), s.drop (8 * n)) from rfl), prefix_take hs _ (by rw [List.length_take]; omega), e1]
    rfl

/-- A line of coefficients: the mark that follows it need not be there. -/
theorem ends_line (e : Endian) (n : Nat) (hn : 0 < n) : Ends 8 (dnsLine e n) := by
  intro s' s hs b t' h
  unfold dnsLine at h ⊢
  obtain ⟨a, u', e1, h⟩ := rd_bind_inv h
  obtain ⟨k, h0, hk, rfl, g⟩ := ends_rdD e n hn s' s hs a u' e1
  rw [rd_bind (show rd 8 (s'.drop (k + 0)) = .ok ((s'.drop (k + 0)).take 8, (s'.drop (k + 0)).drop 8) from rfl)] at h
  cases h
  refine ⟨k, h0, hk, by rw [List.drop_drop, Nat.add_zero], ?_⟩
  rw [rd_bind g, rd_bind (show rd 8 (s.drop (k + 0)) = .ok ((s.drop (k + 0)).take 8, (s.drop (k + 0)).drop 8) from rfl), List.drop_drop, Nat.add_zero]
  rfl

theorem keeps_rdD1 (e : Endian) : Keeps (rdD1 e) := (keeps_rdD e 1).bind fun _ => Keeps.pure _

theorem fails_rdI (e : Endian) : Fails (rdI e) := by
  intro a t h
  cases h

theorem Keeps.mapM {ι α : Type} (f : ι → Rd α) (hf : ∀ i, Keeps (f i)) (l : List ι) : Keeps (l.mapM f) := by
  induction l with
  | nil => exact Keeps.pure _
  | cons i l ih =>
    rw [List.mapM_cons]
    exact (hf i).bind fun _ => ih.bind fun _ => Keeps.pure _

theorem KeepsOr.mapM {ι α : Type} (f : ι → Rd α) (hf : ∀ i, KeepsOr (f i)) (hn : ∀ i, Fails (f i)) (l : List ι) : KeepsOr (l.mapM f) := by
  induction l with
  | nil => exact fun s' s hs a t' h => .inr (Keeps.pure _ s' s hs a t' h)
  | cons i l ih =>
    intro s' s hs b t' h
    rw [List.mapM_cons] at h ⊢
    obtain ⟨a, u', e, h⟩ := rd_bind_inv h
    obtain ⟨c, v', e', h⟩ := rd_bind_inv h
    cases h
    rcases hf i s' s hs a u' e with rfl | ⟨i, rfl, f⟩
    · cases l with
      | nil => cases e'; exact .inl rfl
      | cons j l =>
        rw [List.mapM_cons] at e'
        exact absurd e' (Fails.bind (hn j) _ _)
    · rcases ih _ _ (prefix_drop hs i) c t' e' with rfl | ⟨j, rfl, g⟩
      · exact .inl rfl
      · exact .inr ⟨i + j, by rw [List.drop_drop], by rw [rd_bind f, rd_bind g, List.drop_drop]; rfl⟩

theorem Keeps.foldlM {ι β : Type} (f : β → ι → Rd β) (hf : ∀ b i, Keeps (f b i)) (l : List ι) (b : β) : Keeps (l.foldlM f b) := by
  induction l generalizing b with
  | nil => exact Keeps.pure _
  | cons i l ih =>
    rw [List.foldlM_cons]
    exact (hf b i).bind fun _ => ih _

theorem Ends.foldlM {ι β : Type} {w : Nat} (f : β → ι → Rd β) (hf : ∀ b i, Ends w (f b i)) (l : List ι) (hl : l ≠ []) (b : β) :
    Ends w (l.foldlM f b) := by
  induction l generalizing b with
  | nil => exact absurd rfl hl
  | cons i l ih =>
    rw [List.foldlM_cons]
    cases l with
    | nil =>
      simp only [List.foldlM_nil]
      exact (hf b i).map
    | cons j l => exact Ends.bind (hf b i).keeps fun _ => ih (by simp) _

/-! ### Planes -/

theorem keeps_planeBody2 (e : Endian) (n0 n1 : Nat) : Keeps (planeBody2 e n0 n1) := by
  unfold planeBody2
  exact Keeps.skip _ <| (keeps_rdD _ _).bind fun _ => Keeps.skip _ <| Keeps.skip _ <| (keeps_rdD _ _).bind fun _ => Keeps.skip _ <|
    Keeps.skip _ <| (keeps_rdD _ _).bind fun _ => Keeps.pure _

theorem ends_planeBody2 (e : Endian) (n0 n1 : Nat) (h : 0 < n0 * n1) : Ends 0 (planeBody2 e n0 n1) := by
  unfold planeBody2
  exact Ends.skip _ <| Ends.bind (keeps_rdD _ _) fun _ => Ends.skip _ <| Ends.skip _ <| Ends.bind (keeps_rdD _ _) fun _ => Ends.skip _ <|
    Ends.skip _ <| (ends_rdD _ _ h).map

theorem keeps_planeBody (e : Endian) (ndim : Int) : Keeps (planeBody e ndim) := by
  unfold planeBody
  refine (Keeps.mapM _ (fun _ => keeps_rdI e) _).bind fun nn => Keeps.skip _ ?_
  split
  · split
    · exact Keeps.of _
    · exact (keeps_planeBody2 _ _ _).bind fun _ => Keeps.pure _
  · split
    · split
      · exact Keeps.of _
      · exact (keeps_rdI e).bind fun _ => Keeps.of _
    · exact Keeps.pure _

theorem map_fst_ok {α : Type} {x : Py (α × Bytes)} {a : α} (h : x.map Prod.fst = .ok a) : ∃ t, x = .ok (a, t) := by
  cases x with
  | error => cases h
  | ok p => cases h; exact ⟨p.2, rfl⟩

/-- **C122** for planes: what is read from a truncated file is what is read from the complete one. -/
theorem C122_plane (b : Bytes) (m : Nat) (r : Option Plane) (h : readplane (b.take m) = .ok r) : readplane b = .ok r := by
  have hp : b.take m <+: b := List.take_prefix _ _
  generalize b.take m = b' at h hp
  unfold readplane at h ⊢
  dsimp only at h ⊢
  split at h
  · cases h
  · rename_i hn
    rw [prefix_take hp 4 (not_not.mp hn), if_neg hn]
    obtain ⟨t, e⟩ := map_fst_ok h
    obtain ⟨k, -, f⟩ := keeps_planeBody _ _ _ _ (prefix_drop hp 4) _ _ e
    rw [f]
    rfl

/-! ### Velocity fields -/

theorem pyFloat_nil : pyFloat [] = none := by decide +kernel

theorem fails_scalar (native e : Endian) : Fails (dnsScalar native e) := by
  intro a t h
  unfold dnsScalar at h
  rw [rd_bind (show rd 8 [] = .ok ([], []) from rfl)] at h
  have : npFloat [] = .error .valueError := by decide +kernel
  rw [this] at h
  cases h

theorem keeps_scalar (native e : Endian) : KeepsOr (dnsScalar native e) := by
  intro s' s hs a t' h
  by_cases hl : 16 ≤ s'.length
  · right
    have h1 : s.take 8 = s'.take 8 := prefix_take hs 8 (by rw [List.length_take]; omega)
    have h2 : (s.drop 8).take 8 = (s'.drop 8).take 8 := prefix_take (prefix_drop hs 8) 8 (by rw [List.length_take, List.length_drop]; omega)
    unfold dnsScalar at h ⊢
    rw [rd_bind (show rd 8 s' = .ok (s'.take 8, s'.drop 8) from rfl)] at h
    rw [rd_bind (show rd 8 s = .ok (s.take 8, s.drop 8) from rfl), h1]
    obtain ⟨p, u, e1, h⟩ := rd_bind_inv h
    cases hq : npFloat (s'.take 8) with
    | error => rw [hq] at e1; cases e1
    | ok q =>
      rw [hq] at e1
      cases e1
      rw [rd_bind (Rd.of_ok p (s.drop 8))]
      rw [rd_bind (show rd 8 (s'.drop 8) = .ok ((s'.drop 8).take 8, (s'.drop 8).drop 8) from rfl)] at h
      rw [rd_bind (show rd 8 (s.drop 8) = .ok ((s.drop 8).take 8, (s.drop 8).drop 8) from rfl), h2]
      obtain ⟨k, hk, g⟩ := ((Keeps.of _).bind fun _ => Keeps.pure _) _ _ (prefix_drop (prefix_drop hs 8) 8) _ _ h
      exact ⟨8 + (8 + k), by rw [hk, List.drop_drop, List.drop_drop], by rw [g, List.drop_drop, List.drop_drop]⟩
  · left
    unfold dnsScalar at h
    rw [rd_bind (show rd 8 s' = .ok (s'.take 8, s'.drop 8) from rfl)] at h
    obtain ⟨p, u, e1, h⟩ := rd_bind_inv h
    have ku : u = s'.drop 8 := by
      cases hq : npFloat (s'.take 8) with
      | error => rw [hq] at e1; cases e1
      | ok q => rw [hq] at e1; cases e1; rfl
    rw [ku, rd_bind (show rd 8 (s'.drop 8) = .ok ((s'.drop 8).take 8, (s'.drop 8).drop 8) from rfl)] at h
    obtain ⟨q, v, e2, h⟩ := rd_bind_inv h
    cases h
    have kv : t' = (s'.drop 8).drop 8 := by
      cases hq : npFloat ((s'.drop 8).take 8) with
      | error => rw [hq] at e2; cases e2
      | ok q => rw [hq] at e2; cases e2; rfl
    rw [kv, List.drop_drop]
    exact List.drop_eq_nil_of_le (by omega)

theorem Keeps.ite {α : Type} {c : Prop} [Decidable c] {x y : Rd α} (hx : Keeps x) (hy : Keeps y) : Keeps (if c then x else y) := by
  split
  · exact hx
  · exact hy

theorem keeps_flow (e : Endian) (nscal : Nat) (fltype : Int) : Keeps (dnsFlow e nscal fltype) := by
  unfold dnsFlow
  dsimp only
  repeat' first
    | exact Keeps.pure _
    | refine Keeps.ite ?_ ?_
    | refine (keeps_rdD1 e).bind fun _ => ?_
    | refine (keeps_rdD e _).bind fun _ => ?_
    | refine Keeps.skip _ ?_

theorem keeps_head (native e : Endian) (nscal : Nat) : Keeps (dnsHead native e nscal) := by
  have hd := keeps_rdD1 e
  have hi := keeps_rdI e
  unfold dnsHead
  refine hd.bind fun _ => hi.bind fun _ => (keeps_rdD _ _).bind fun _ => hd.bind fun _ => Keeps.skip _ <|
    (KeepsOr.mapM _ (fun _ => keeps_scalar native e) (fun _ => fails_scalar native e) _).bind (fun _ => Fails.skip _ <| (fails_rdI e).bind)
      fun _ => Keeps.skip _ <| hi.bind fun _ => hi.bind fun _ => hi.bind fun _ => hi.bind fun _ => Keeps.skip _ <| hi.bind fun _ => hd.bind fun _ => ?_
  split
  · exact Keeps.of _
  · refine Keeps.skip _ <| (keeps_flow _ _ _).bind fun _ => ?_
    split
    · exact Keeps.of _
    · split
      · exact Keeps.of _
      · exact Keeps.pure _

theorem keeps_fou {C : Type} (e : Endian) (nx ny nz : Nat) (coef : F64 → F64 → C) (fou : Nat → Nat → Nat → C) :
    Keeps (dnsFou e nx ny nz coef fou) := by
  unfold dnsFou
  exact Keeps.foldlM _ (fun _ _ => ((keeps_rdD e nx).bind fun _ => Keeps.skip _ <| Keeps.pure _).bind fun _ => Keeps.pure _) _ _

theorem keeps_fous {C : Type} (e : Endian) (nx ny nz : Nat) (coef : Nat → F64 → F64 → C) (cs : List Nat) (fou : Nat → Nat → Nat → C) :
    Keeps (dnsFous e nx ny nz coef cs fou) := by
  induction cs generalizing fou with
  | nil => exact Keeps.pure _
  | cons c cs ih => exact (keeps_fou _ _ _ _ _ _).bind fun _ => (ih _).bind fun _ => Keeps.pure _

/-- **C122** for velocity fields: what is read from a truncated file is what is read from the complete one, whatever is done with the numbers. -/
theorem C122_dns {C V : Type} (native : Endian) (zero : C) (coef : Nat → Nat → F64 → F64 → C)
    (ift : Nat → Nat → (Nat → Nat → Nat → C) → Nat → Nat → Nat → V) (crd : DnsHead → Nat → Nat → Nat → Nat → V) (b : Bytes) (m : Nat)
    (r : Option (Dns V)) (h : readdns native zero coef ift crd (b.take m) = .ok r) : readdns native zero coef ift crd b = .ok r := by
  have hp : b.take m <+: b := List.take_prefix _ _
  generalize b.take m = b' at h hp
  have key : ∀ (e : Endian) (nscal : Nat), Keeps ((do
      let h ← dnsHead native e nscal
      let fous ← dnsFous e h.nx h.ny h.nz (coef (h.nx * h.nz)) (List.range (3 + nscal)) fun _ _ _ => zero
      pure (some ⟨h, e, crd h, fous.map (ift h.nx h.nz)⟩) : Rd (Option (Dns V)))) := fun e nscal =>
    (keeps_head native e nscal).bind fun h => (keeps_fous _ _ _ _ _ _ _).bind fun _ => Keeps.pure _
  unfold readdns at h ⊢
  dsimp only at h ⊢
  split at h
  · cases h
  · rename_i hn
    rw [prefix_take hp 4 (not_not.mp hn), if_neg hn]
    split at h
    · rename_i hc
      rw [if_pos hc]
      obtain ⟨t, e⟩ := map_fst_ok h
      obtain ⟨k, -, f⟩ := key _ _ _ _ (prefix_drop hp 4) _ _ e
      rw [f]
      rfl
    · rename_i hc
      rw [if_neg hc]
      split at h
      · rename_i hg
        rw [if_pos hg]
        obtain ⟨t, e⟩ := map_fst_ok h
        obtain ⟨k, -, f⟩ := key _ _ _ _ (prefix_drop hp 4) _ _ e
        rw [f]
        rfl
      · rename_i hg
        rw [if_neg hg]
        exact h

/-! ### How much has to be there -/

theorem ends_fous {C : Type} (e : Endian) (nx ny nz : Nat) (hx : 0 < nx) (hy : 0 < ny) (hz : 0 < nz) (coef : Nat → F64 → F64 → C) (cs : List Nat)
    (hc : cs ≠ []) (fou : Nat → Nat → Nat → C) : Ends 8 (dnsFous e nx ny nz coef cs fou) := by
  have hl : prod2 (List.range nz) (List.range ny) ≠ [] := fun h => by
    have : (0, 0) ∈ prod2 (List.range nz) (List.range ny) := by simp [prod2, hy, hz]
    rw [h] at this
    cases this
  have one : ∀ (c : Nat) (fou : Nat → Nat → Nat → C), Ends 8 (dnsFou e nx ny nz (coef c) fou) := fun c fou => by
    unfold dnsFou
    exact Ends.foldlM _ (fun _ _ => (ends_line e nx hx).map) _ hl _
  induction cs generalizing fou with
  | nil => exact absurd rfl hc
  | cons c cs ih =>
    rw [dnsFous]
    cases cs with
    | nil =>
      simp only [dnsFous, pure_bind]
      exact (one c fou).map
    | cons d cs => exact Ends.bind (one c fou).keeps fun _ => (ih (by simp) _).map

/-- **C122** for velocity fields: a file without scalars that lost more than the mark after its last record is refused. -/
theorem C122_dns_refused {C V : Type} (native e : Endian) (zero : C) (coef : Nat → Nat → F64 → F64 → C)
    (ift : Nat → Nat → (Nat → Nat → Nat → C) → Nat → Nat → Nat → V) (crd : DnsHead → Nat → Nat → Nat → Nat → V)
    (H : DnsRaw) (hH : H.Ok) (hy : 0 < H.ny) (mark : Nat → Bytes) (hmark : ∀ k < 3, (mark k).length = 8)
    (flow : List (List F64 × Bytes)) (hf : flow.map (fun p => p.1.length) = flowRecords H.fltype) (hm : ∀ p ∈ flow, p.2.length = 8)
    (L : Nat → Nat × Nat → List F64) (m : Nat → Nat × Nat → Bytes) (hL : ∀ c t, (L c t).length = H.nx) (hmm : ∀ c t, (m c t).length = 8)
    (k : Nat) (hk : k + 8 < (dnsFile e H mark flow L m []).length) :
    ∃ err, readdns native zero coef ift crd ((dnsFile e H mark flow L m []).take k) = .error err := by
  cases hr : readdns native zero coef ift crd ((dnsFile e H mark flow L m []).take k) with
  | error err => exact ⟨err, rfl⟩
  | ok r =>
    exfalso
    have hp : (dnsFile e H mark flow L m []).take k <+: dnsFile e H mark flow L m [] := List.take_prefix _ _
    have hlen : ((dnsFile e H mark flow L m []).take k).length = k := by rw [List.length_take]; omega
    have hh := dnsHead_app native e H hH mark hmark flow hf hm
      (planesFile e H.nz H.ny (L 0) (m 0) ++ (planesFile e H.nz H.ny (L 1) (m 1) ++ (planesFile e H.nz H.ny (L 2) (m 2) ++ [])))
    obtain ⟨l, hfs⟩ : ∃ l, dnsFous e H.nx H.ny H.nz (coef (H.nx * H.nz)) [0, 1, 2] (fun _ _ _ => zero)
        (planesFile e H.nz H.ny (L 0) (m 0) ++ (planesFile e H.nz H.ny (L 1) (m 1) ++ (planesFile e H.nz H.ny (L 2) (m 2) ++ []))) = .ok (l, []) :=
      ⟨_, dnsFous_cons (dnsFou_planes e _ _ _ _ _ (L 0) (m 0) (hL 0) (hmm 0) _)
        (dnsFous_cons (dnsFou_planes e _ _ _ _ _ (L 1) (m 1) (hL 1) (hmm 1) _)
          (dnsFous_cons (dnsFou_planes e _ _ _ _ _ (L 2) (m 2) (hL 2) (hmm 2) _) rfl))⟩
    have hd : (dnsFile e H mark flow L m []).drop 4 = _ := List.drop_left' (encW_length _ _ _)
    rw [← hd] at hh
    have ht : (dnsFile e H mark flow L m []).take 4 = encW e 4 (44 + 16 * 0) := List.take_left' (encW_length _ _ _)
    generalize hb : dnsFile e H mark flow L m [] = b at *
    generalize b.take k = b' at *
    have hgo : ∀ a t', ((do
        let h ← dnsHead native e 0
        let fous ← dnsFous e h.nx h.ny h.nz (coef (h.nx * h.nz)) (List.range (3 + 0)) fun _ _ _ => zero
        pure (some ⟨h, e, crd h, fous.map (ift h.nx h.nz)⟩) : Rd (Option (Dns V))) (b'.drop 4)) ≠ .ok (a, t') := by
      intro a t' ha
      obtain ⟨h, u', e1, ha⟩ := rd_bind_inv ha
      obtain ⟨fs, v', e2, -⟩ := rd_bind_inv ha
      obtain ⟨i, rfl, e3⟩ := keeps_head native e 0 _ _ (prefix_drop hp 4) _ _ e1
      rw [hh] at e3
      injection e3 with e3
      injection e3 with e3 e4
      subst e3
      obtain ⟨j, j0, j1, -, e5⟩ := ends_fous e H.nx H.ny H.nz hH.nx.1 hy hH.nz.1 (coef (H.nx * H.nz)) [0, 1, 2] (by simp) (fun _ _ _ => zero) _ _
        (prefix_drop (prefix_drop hp 4) i) _ _ e2
      rw [← e4, hfs] at e5
      injection e5 with e5
      injection e5 with e5 e6
      have := congrArg List.length e6
      rw [e4] at this
      simp only [List.length_drop, List.length_nil] at this j1
      omega
    obtain ⟨⟨ha, hb⟩, hc, hd⟩ := dns_tag e 0 (by omega)
    unfold readdns at hr
    dsimp only at hr
    split at hr
    · cases hr
    · rename_i hn
      rw [← prefix_take hp 4 (not_not.mp hn), ht] at hr
      cases e with
      | little =>
        rw [if_pos ⟨ha, hb⟩, hc] at hr
        obtain ⟨t, h⟩ := map_fst_ok hr
        exact hgo _ _ h
      | big =>
        rw [if_neg (hd rfl), if_pos ⟨ha, hb⟩, hc] at hr
        obtain ⟨t, h⟩ := map_fst_ok hr
        exact hgo _ _ h

/-- **C122** for planes: a file is refused exactly if a part of its numbers is lost. -/
theorem C122_plane_exact (e : Endian) (n0 n1 : Nat) (h0 : n0 < 2 ^ 31) (h1 : n1 < 2 ^ 31) (hp : 0 < n0 * n1) (x y d : Nat → Nat → F64)
    (mark : Nat → Bytes) (hm : ∀ k < 7, (mark k).length = 4) (k : Nat) :
    (∃ err, readplane ((planeFile e n0 n1 x y d mark).take k) = .error err) ↔ k + 4 < (planeFile e n0 n1 x y d mark).length := by
  have hlen : (planeFile e n0 n1 x y d mark).length = 40 + 24 * (n0 * n1) := by
    unfold planeFile
    simp only [List.length_append, encW_length, dbls_length, columns_length, hm 0 (by omega), hm 1 (by omega), hm 2 (by omega), hm 3 (by omega),
      hm 4 (by omega), hm 5 (by omega), hm 6 (by omega)]
    omega
  constructor
  · rintro ⟨err, hr⟩
    by_contra hk
    have e1 : (planeFile e n0 n1 x y d mark).take k = planeFile e n0 n1 x y d (fun i => if i = 6 then (mark 6).take (k - (36 + 24 * (n0 * n1))) else mark i) := by
      have split : ∀ mk : Nat → Bytes, planeFile e n0 n1 x y d mk = (encW e 4 8 ++ (encW e 4 n0 ++ (encW e 4 n1 ++ (mk 0 ++ (mk 1 ++
          (dbls e (columns n0 n1 x) ++ (mk 2 ++ (mk 3 ++ (dbls e (columns n0 n1 y) ++ (mk 4 ++ (mk 5 ++ dbls e (columns n0 n1 d)))))))))))) ++ mk 6 := by
        intro mk
        unfold planeFile
        simp only [List.append_assoc]
      rw [split, split, List.take_append, List.take_of_length_le]
      · congr 2
        simp only [List.length_append, encW_length, dbls_length, columns_length, hm 0 (by omega), hm 1 (by omega), hm 2 (by omega), hm 3 (by omega),
          hm 4 (by omega), hm 5 (by omega)]
        omega
      · simp only [List.length_append, encW_length, dbls_length, columns_length, hm 0 (by omega), hm 1 (by omega), hm 2 (by omega), hm 3 (by omega),
          hm 4 (by omega), hm 5 (by omega)]
        omega
    obtain ⟨P, hP, -⟩ := C28 e n0 n1 h0 h1 x y d (fun i => if i = 6 then (mark 6).take (k - (36 + 24 * (n0 * n1))) else mark i) (by
      intro i hi
      rw [if_neg (by omega)]
      exact hm i (by omega))
    rw [e1, hP] at hr
    cases hr
  · intro hk
    cases hr : readplane ((planeFile e n0 n1 x y d mark).take k) with
    | error err => exact ⟨err, rfl⟩
    | ok r =>
      exfalso
      have hpre : (planeFile e n0 n1 x y d mark).take k <+: planeFile e n0 n1 x y d mark := List.take_prefix _ _
      have hk' : ((planeFile e n0 n1 x y d mark).take k).length = k := by rw [List.length_take]; omega
      have ht : (planeFile e n0 n1 x y d mark).take 4 = encW e 4 (4 * 2) := List.take_left' (encW_length _ _ _)
      have hs : (do let a ← rdI e; let b ← rdI e; pure [a, b] : Rd (List Int)) ((planeFile e n0 n1 x y d mark).drop 4) =
          .ok ([(n0 : Int), (n1 : Int)], (planeFile e n0 n1 x y d mark).drop 12) := by
        have h12 : (planeFile e n0 n1 x y d mark).drop 12 = (((planeFile e n0 n1 x y d mark).drop 4).drop 4).drop 4 := by
          rw [List.drop_drop, List.drop_drop]
        rw [h12]
        unfold planeFile
        rw [List.drop_left' (encW_length _ _ _), rd_bind (rdI_nat e n0 h0 _), rd_bind (rdI_nat e n1 h1 _),
          List.drop_left' (encW_length _ _ _), List.drop_left' (encW_length _ _ _)]
        rfl
      obtain ⟨Q, hQ⟩ : ∃ Q, planeBody2 e n0 n1 ((planeFile e n0 n1 x y d mark).drop 16) = .ok (Q, mark 6) := by
        have h16 : (planeFile e n0 n1 x y d mark).drop 16 = mark 1 ++ (dbls e (columns n0 n1 x) ++ (mark 2 ++ (mark 3 ++
            (dbls e (columns n0 n1 y) ++ (mark 4 ++ (mark 5 ++ (dbls e (columns n0 n1 d) ++ mark 6))))))) := by
          unfold planeFile
          rw [← List.append_assoc, ← List.append_assoc, ← List.append_assoc]
          exact List.drop_left' (by simp [encW_length, hm 0])
        rw [h16]
        unfold planeBody2
        rw [rd_bind (rd_app (hm 1 (by omega)) _), rd_bind (rdD_app e _ _ (columns_length n0 n1 x) _), rd_bind (rd_app (hm 2 (by omega)) _),
          rd_bind (rd_app (hm 3 (by omega)) _), rd_bind (rdD_app e _ _ (columns_length n0 n1 y) _), rd_bind (rd_app (hm 4 (by omega)) _),
          rd_bind (rd_app (hm 5 (by omega)) _), rd_bind (rdD_app e _ _ (columns_length n0 n1 d) _)]
        exact ⟨_, rfl⟩
      generalize planeFile e n0 n1 x y d mark = b at *
      generalize b.take k = b' at *
      unfold readplane at hr
      dsimp only at hr
      split at hr
      · cases hr
      · rename_i hn
        obtain ⟨g1, g2⟩ := plane_tag e 2 (by omega)
        rw [← prefix_take hpre 4 (not_not.mp hn), ht, g1, g2] at hr
        obtain ⟨t, hr⟩ := map_fst_ok hr
        unfold planeBody at hr
        have hnn : ((List.range ((2 : Nat) : Int).toNat).mapM fun _ => rdI e : Rd (List Int)) =
            (do let a ← rdI e; let b ← rdI e; pure [a, b]) := by
          simp [List.range_succ, List.mapM_cons]
        rw [hnn] at hr
        obtain ⟨nn, u', e1, hr⟩ := rd_bind_inv hr
        obtain ⟨i, rfl, e2⟩ := ((keeps_rdI e).bind fun _ => (keeps_rdI e).bind fun _ => Keeps.pure _) _ _ (prefix_drop hpre 4) _ _ e1
        rw [hs] at e2
        injection e2 with e2
        injection e2 with e2 e3
        subst e2
        rw [rd_bind (show rd 4 ((b'.drop 4).drop i) = .ok (((b'.drop 4).drop i).take 4, ((b'.drop 4).drop i).drop 4) from rfl), if_pos (by rfl),
          if_neg (by simp)] at hr
        obtain ⟨P, v, e4, -⟩ := rd_bind_inv hr
        simp only [List.getD_cons_zero, List.getD_cons_succ, Int.toNat_natCast] at e4
        have hi : i = 8 := by
          have := congrArg List.length e3
          simp only [List.length_drop] at this
          omega
        subst hi
        simp only [List.drop_drop] at e4
        obtain ⟨j, j0, j1, -, e5⟩ := ends_planeBody2 e n0 n1 hp _ _ (prefix_drop hpre 16) _ _ e4
        rw [hQ] at e5
        injection e5 with e5
        injection e5 with e5 e6
        have := congrArg List.length e6
        rw [hm 6 (by omega)] at this
        simp only [List.length_drop] at this j1
        omega

/-- The plane can lose its last mark, but no byte of its numbers. -/
example : (∃ r, readplane (Samples.plane.take 180) = .ok r ∧ readplane Samples.plane = .ok r) ∧ ∃ err, readplane (Samples.plane.take 179) = .error err := by
  have hl : Samples.plane.length = 184 := by decide +kernel
  have h := fun k => C122_plane_exact .big 3 2 (by decide) (by decide) (by decide) (fun i j => Flt.ofBits (1000 + 10 * i + j))
    (fun i j => Flt.ofBits (2000 + 10 * i + j)) (fun i j => Flt.ofBits (3000 + 10 * i + j)) (fun k => [0, 1, 2, UInt8.ofNat k]) (fun _ _ => rfl) k
  have h1 := h 180
  have h2 := h 179
  change (∃ err, readplane (Samples.plane.take 180) = .error err) ↔ 180 + 4 < Samples.plane.length at h1
  change (∃ err, readplane (Samples.plane.take 179) = .error err) ↔ 179 + 4 < Samples.plane.length at h2
  rw [hl] at h1 h2
  refine ⟨?_, h2.mpr (by decide)⟩
  cases e : readplane (Samples.plane.take 180) with
  | error err => exact absurd (h1.mp ⟨err, e⟩) (by decide)
  | ok r => exact ⟨r, rfl, C122_plane _ _ _ e⟩

/-- The velocity file has three bytes of its own after the last mark. -/
example (r : Option (Dns (F64 × F64))) (k : Nat)
    (h : readdns .little (0, 0) (fun _ _ a b => (a, b)) (fun _ _ f => f) (fun _ _ _ _ _ => (0, 0)) (Samples.dnsBytes.take k) = .ok r) :
    readdns .little (0, 0) (fun _ _ a b => (a, b)) (fun _ _ f => f) (fun _ _ _ _ _ => (0, 0)) Samples.dnsBytes = .ok r :=
  C122_dns _ _ _ _ _ _ k r h

example : ∃ err, readdns .little ((0 : F64), (0 : F64)) (fun _ _ a b => (a, b)) (fun _ _ f => f) (fun _ _ _ _ _ => ((0 : F64), (0 : F64)))
    ((dnsFile .big Samples.dnsRaw (fun k => List.replicate 8 (UInt8.ofNat k)) [([1, 2, 3, 4].map Flt.ofBits, List.replicate 8 9)] Samples.dnsLines
      (fun _ _ => List.replicate 8 5) []).take 1500) = .error err :=
  C122_dns_refused .little .big ((0 : F64), (0 : F64)) (fun _ _ a b => (a, b)) (fun _ _ f => f)
    (fun _ _ _ _ _ => ((0 : F64), (0 : F64))) Samples.dnsRaw Samples.dnsRaw_ok (by decide) (fun k => List.replicate 8 (UInt8.ofNat k)) (fun _ _ => rfl)
    [([1, 2, 3, 4].map Flt.ofBits, List.replicate 8 9)] (by decide) (by decide) Samples.dnsLines (fun _ _ => List.replicate 8 5) (fun _ _ => rfl)
    (fun _ _ => rfl) 1500 (by decide +kernel)

end Pymech
