import Verif.Mesh.FloatKeep
import Verif.Props.ExtrudeFloat
import Verif.Props.KeepTwice

/-!
# C147: `keep_elements` in double precision
-/

set_option autoImplicit false

namespace Pymech

open Spec Flt

theorem roundMag_nat (n : Nat) (hn : n ≤ 2 ^ 53) : roundMag 11 52 (n : ℚ) < infMag 11 52 ∧ magVal 11 52 (roundMag 11 52 (n : ℚ)) = n := by
  rcases hn.lt_or_eq with h | h
  · have := roundMag_exact n 0 h (by norm_num) (by norm_num)
    rwa [zpow_zero, mul_one] at this
  · have := roundMag_exact (2 ^ 52) 1 (by norm_num) (by norm_num) (by norm_num)
    have e : ((2 ^ 52 : Nat) : ℚ) * 2 ^ (1 : Int) = (n : ℚ) := by
      rw [h]
      norm_num
    rwa [e] at this

/-- A magnitude is a whole number below `2 ^ 53` times a power of two. -/
theorem magVal_form64 (m : Nat) : ∃ (k : Nat) (e : Int), k < 2 ^ 53 ∧ -1074 ≤ e ∧ magVal 11 52 m = k * 2 ^ e := by
  unfold magVal
  rw [minExp64]
  split_ifs with h
  · refine ⟨m, -1074, ?_, le_refl _, rfl⟩
    have : m < 2 ^ 52 := by
      by_contra hc
      have := Nat.div_pos (not_lt.1 hc) (by norm_num : 0 < 2 ^ 52)
      omega
    have : (2 : Nat) ^ 53 = 2 * 2 ^ 52 := by norm_num
    omega
  · refine ⟨2 ^ 52 + m % 2 ^ 52, _, ?_, ?_, rfl⟩
    · have := Nat.mod_lt m (by norm_num : 0 < 2 ^ 52)
      have : (2 : Nat) ^ 53 = 2 * 2 ^ 52 := by norm_num
      omega
    · have : 1 ≤ m / 2 ^ 52 := Nat.one_le_iff_ne_zero.2 h
      omega

/-- Rounding leaves the difference of a double and a smaller whole number alone. -/
theorem roundMag_sub (m n : Nat) (h1 : (n : ℚ) ≤ magVal 11 52 m) (h2 : magVal 11 52 m < 2 ^ 53 + 1) :
    roundMag 11 52 (magVal 11 52 m - n) < infMag 11 52 ∧ magVal 11 52 (roundMag 11 52 (magVal 11 52 m - n)) = magVal 11 52 m - n := by
  obtain ⟨k, e, hk, he, hm⟩ := magVal_form64 m
  rw [hm] at h1 h2 ⊢
  by_cases h : e ≤ 0
  · obtain ⟨d, rfl⟩ : ∃ d : Nat, e = -(d : Int) := ⟨e.natAbs, by omega⟩
    have hp : (0 : ℚ) < 2 ^ d := by positivity
    have e1 : (2 : ℚ) ^ (-(d : Int)) = (2 ^ d)⁻¹ := by rw [zpow_neg, zpow_natCast]
    have hle : n * 2 ^ d ≤ k := by
      rw [e1, ← div_eq_mul_inv, le_div_iff₀ hp] at h1
      exact_mod_cast h1
    have e2 : (k : ℚ) * 2 ^ (-(d : Int)) - n = ((k - n * 2 ^ d : Nat) : ℚ) * 2 ^ (-(d : Int)) := by
      rw [Nat.cast_sub hle, e1]
      push_cast
      field_simp
    rw [e2]
    exact roundMag_exact _ _ (by omega) he (by omega)
  · obtain ⟨d, rfl⟩ : ∃ d : Nat, e = (d : Int) := ⟨e.toNat, by omega⟩
    rw [zpow_natCast] at h1 h2 ⊢
    have e1 : (k : ℚ) * 2 ^ d = ((k * 2 ^ d : Nat) : ℚ) := by push_cast; rfl
    rw [e1] at h1 h2 ⊢
    have h3 : n ≤ k * 2 ^ d := by exact_mod_cast h1
    have h4 : k * 2 ^ d < 2 ^ 53 + 1 := by exact_mod_cast h2
    rw [← Nat.cast_sub h3]
    exact roundMag_nat _ (by omega)

/-- The difference of a double below `2 ^ 53 + 1` and a smaller whole number is exact. -/
theorem sub_whole_exact (x : F64) (n : Nat) (hx : x.Finite) (h1 : (n : ℚ) ≤ x.val) (h2 : x.val < 2 ^ 53 + 1) :
    (x - ((n : Int) : F64)).Finite ∧ (x - ((n : Int) : F64)).val = x.val - n := by
  have hn : n ≤ 2 ^ 53 := by
    have : (n : ℚ) < 2 ^ 53 + 1 := lt_of_le_of_lt h1 h2
    have : n < 2 ^ 53 + 1 := by exact_mod_cast this
    omega
  obtain ⟨f1, f2⟩ := intCast_exact (n : Int) (by rw [abs_of_nonneg (by omega)]; exact_mod_cast hn)
  have hv : x.val = magVal 11 52 x.mag := by
    unfold val at h1 ⊢
    have h0 := magVal_nonneg (eb := 11) (mb := 52) x.mag
    have hn0 : (0 : ℚ) ≤ n := Nat.cast_nonneg n
    split_ifs at h1 ⊢ <;> linarith
  have hq : 0 ≤ x.val - n := sub_nonneg.2 h1
  have e2 : (((n : Int) : F64)).val = (n : ℚ) := by rw [f2]; simp
  rw [sub_fin hx f1, e2]
  obtain ⟨g1, g2⟩ := roundMag_sub x.mag n (hv ▸ h1) (hv ▸ h2)
  rw [← hv] at g1 g2
  constructor
  · unfold Flt.Finite
    rw [ofQ_mag, abs_of_nonneg hq]
    exact g1
  · rw [ofQ_val, if_neg (not_lt.2 hq), abs_of_nonneg hq]
    exact g2

theorem pos_le_of_pairwise (T : List Nat) (hT : T.Pairwise (· < ·)) (q c : Nat) (hc : T[q]? = some c) : q ≤ c := by
  induction q generalizing c with
  | zero => omega
  | succ q ih =>
    obtain ⟨hlt, hc'⟩ := List.getElem?_eq_some_iff.1 hc
    have h1 := ih T[q] (List.getElem?_eq_getElem (by omega))
    have h2 := List.pairwise_iff_getElem.1 hT q (q + 1) (by omega) hlt (by omega)
    omega

theorem le_of_trunc (x : ℚ) (c : Nat) (h : trunc x = (c : Int) + 1) : (c : ℚ) + 1 ≤ x ∧ x < (c : ℚ) + 2 := by
  unfold trunc at h
  split_ifs at h with h0
  · have := Int.floor_eq_iff.1 h
    push_cast at this
    constructor
    · linarith [this.1]
    · linarith [this.2]
  · push Not at h0
    have : ⌈x⌉ ≤ 0 := Int.ceil_le.2 (by simpa using h0.le)
    omega

/-- New record of a kept element: its values are those of exact arithmetic, and its link numbers are finite. -/
theorem keepBCF_ok (S : List Nat) (hS : S.Pairwise (· < ·)) (s : KeepState) (hk : ∀ i, s.kept i = true ↔ i ∈ S)
    (ho : ∀ q c : Nat, S[q]? = some c → s.offsets c = (c : Int) - q) (nel : Nat) (hnel : nel ≤ 2 ^ 53) (ext : Name) (iel off : Int)
    (r : BC F64) (hl : r.typ = nE ∨ r.typ = nP → r.p3.Finite ∧ r.p4.Finite ∧ ∃ c < nel, trunc r.p3.val = (c : Int) + 1) :
    ∃ r', keepBCF s nel ext iel off r = .ok r' ∧ keepBC s nel ext iel off r.vals = .ok r'.vals ∧
      (r'.typ = nE ∨ r'.typ = nP → r'.p3.Finite ∧ r'.p4.Finite) := by
  unfold keepBCF keepBC
  by_cases h : r.typ = nE ∨ r.typ = nP
  · obtain ⟨f3, f4, c, hc, ht⟩ := hl h
    have hpi : pyIndex nel ((c : Int) + 1 - 1) = .ok c := by rw [show (c : Int) + 1 - 1 = c by omega, pyIndex_nat hc]
    have ht' : trunc r.vals.p3 = (c : Int) + 1 := ht
    have h' : r.vals.typ = nE ∨ r.vals.typ = nP := h
    simp only [if_pos h, if_pos h', truncF_fin f3, ht, ht', bind, Except.bind, hpi]
    by_cases hkc : s.kept c = true
    · obtain ⟨q, hq⟩ := List.mem_iff_getElem?.1 ((hk c).1 hkc)
      have hqc := pos_le_of_pairwise S hS q c hq
      obtain ⟨b1, b2⟩ := le_of_trunc _ _ ht
      have e : s.offsets c = ((c - q : Nat) : Int) := by rw [ho q c hq]; omega
      obtain ⟨g1, g2⟩ := sub_whole_exact r.p3 (c - q) f3 (by
          have : ((c - q : Nat) : ℚ) ≤ c := by exact_mod_cast Nat.sub_le c q
          linarith) (by
          have : ((c : ℚ)) + 1 ≤ 2 ^ 53 := by
            have : c + 1 ≤ 2 ^ 53 := by omega
            exact_mod_cast this
          linarith)
      rw [if_pos hkc, if_pos hkc]
      refine ⟨_, rfl, ?_, fun _ => ⟨by rw [e]; exact g1, f4⟩⟩
      refine congrArg Except.ok ?_
      simp only [BC.vals]
      rw [e, g2]
      simp
    · rw [if_neg hkc, if_neg hkc]
      have z : (0 : F64).Finite := by decide +kernel
      refine ⟨_, rfl, ?_, fun _ => ⟨z, z⟩⟩
      refine congrArg Except.ok ?_
      simp only [BC.vals, zeroF_val]
  · have h' : ¬ (r.vals.typ = nE ∨ r.vals.typ = nP) := h
    simp only [if_neg h, if_neg h']
    exact ⟨_, rfl, rfl, fun hn => absurd hn h⟩

theorem keptRec_unique (S : List Nat) (ext : Name) (j : Nat) (r a b : BC ℚ) (hl : IsLink r → ∃ c : Nat, trunc r.p3 = (c : Int) + 1)
    (ha : KeptRec S ext j r a) (hb : KeptRec S ext j r b) : a = b := by
  by_cases h : IsLink r
  · obtain ⟨c, hc⟩ := hl h
    by_cases hS : c ∈ S
    · obtain ⟨q, hq⟩ := List.mem_iff_getElem?.1 hS
      rw [ha.kept q c hq h hc, hb.kept q c hq h hc]
    · have : ∀ c' ∈ S, trunc r.p3 ≠ (c' : Int) + 1 := by
        intro c' hc' e
        rw [hc] at e
        obtain rfl : c = c' := by omega
        exact hS hc'
      rw [ha.removed h this, hb.removed h this]
  · rw [ha.other h, hb.other h]

/-- `keep_elements` of doubles is exact: the values of its result are the result of exact arithmetic on the values. Link numbers need not be whole. -/
theorem keepElementsF_exact (M : HexaData F64) (hw : WFF M) (hs : M.nel ≤ 2 ^ 53) (elems : List Int) (A : KeepArgs M.vals elems) (ext : Name)
    (hf : LinksFinite M) (hl : LinksExist M.vals) :
    ∃ S R, Sorts S elems ∧ keepElementsF M elems ext = .ok R ∧ keepElements M.vals elems ext = .ok R.vals ∧ R.ndim = M.ndim ∧ R.nbc = M.nbc ∧
      R.nel = elems.length ∧ R.elem.length = S.length ∧ LinksFinite R ∧
      ∀ j i, S[j]? = some i → i < M.elem.length ∧ R.el j = { M.el i with bcs := (R.el j).bcs } := by
  have hu : ∀ S : List Nat, S.Pairwise (· < ·) → (∀ i ∈ S, i < M.nel) → ∀ s : KeepState, (∀ i, s.kept i = true ↔ i ∈ S) →
      (∀ q c : Nat, S[q]? = some c → s.offsets c = (c : Int) - q) → ∀ j i : Nat, S[j]? = some i → ∀ b < M.nbc, ∀ f < 2 * M.ndim,
      ∃ r', keepBCF s M.nel ext i (s.offsets i) (M.bc i b f) = .ok r' ∧ (KeptRec S ext j (M.bc i b f).vals r'.vals ∧
        (r'.typ = nE ∨ r'.typ = nP → r'.p3.Finite ∧ r'.p4.Finite)) := by
    intro S hS hr s hk ho j i hj b hb f hf'
    have hi : i < M.elem.length := by rw [← hw.nel]; exact hr i (List.mem_of_getElem? hj)
    have hex : IsLink (M.bc i b f).vals → ∃ c < M.nel, trunc (M.bc i b f).vals.p3 = (c : Int) + 1 := by
      intro h
      have := hl i (by rw [vals_length]; exact hi) b hb f hf'
      rw [vals_bc] at this
      exact this h
    obtain ⟨r', h1, h2, h3⟩ := keepBCF_ok S hS s hk ho M.nel hs ext i (s.offsets i) (M.bc i b f)
      (fun h => ⟨(hf i hi b hb f hf' h).1, (hf i hi b hb f hf' h).2, hex h⟩)
    obtain ⟨r'', g1, g2⟩ := keepBC_ok S (hS.imp fun h => Nat.ne_of_lt h) s hk ho M.nel ext j i hj (M.bc i b f).vals hex
    rw [h2] at g1
    obtain rfl := Except.ok.inj g1
    exact ⟨r', h1, g2, h3⟩
  obtain ⟨S, R, a1, a2, a3, a4, a5⟩ := keepElementsBy_spec keepBCF (fun S j r r' => KeptRec S ext j r.vals r'.vals ∧
    (r'.typ = nE ∨ r'.typ = nP → r'.p3.Finite ∧ r'.p4.Finite)) M hw.nel elems A.nodup A.range ext hu
  obtain ⟨S', R', b1, b2, b3, b4, b5⟩ := keep_elements_spec M.vals (by rw [vals_length]; exact hw.nel) elems A ext hl
  obtain rfl := sorts_unique a1 b1
  have hd : R.ndim = M.ndim := by rw [a3]
  have hb : R.nbc = M.nbc := by rw [a3]
  have hel : R.vals.elem = R'.elem := by
    apply List.ext_getElem
    · rw [vals_length, a4, b4]
    · intro j h1 h2
      rw [← HexaData.el_eq_getElem _ _ h1, ← HexaData.el_eq_getElem _ _ h2, vals_el]
      rw [b4] at h2
      have hj : S[j]? = some S[j] := List.getElem?_eq_getElem h2
      obtain ⟨c1, c2, c3⟩ := a5 j _ hj
      obtain ⟨d1, d2, d3⟩ := b5 j _ hj
      have e : (R.el j).vals.bcs = (R'.el j).bcs := by
        funext b f
        change (R.bc j b f).vals = R'.bc j b f
        by_cases h : b < M.nbc ∧ f < 2 * M.ndim
        · have k1 := ((c3 b f).1 h).1
          have k2 := (d3 b f).1 h
          rw [vals_bc] at k2
          refine keptRec_unique S ext j _ _ _ (fun hlk => ?_) k1 k2
          obtain ⟨c, -, hc⟩ := hl S[j] d1 b h.1 f h.2 (by rw [vals_bc]; exact hlk)
          rw [vals_bc] at hc
          exact ⟨c, hc⟩
        · have k1 := (c3 b f).2 h
          have k2 := (d3 b f).2 h
          rw [k1, k2, vals_bc]
      rw [d2, ← e, vals_el, c2]
      rfl
  have hR : R.vals = R' := by
    rw [b3, ← hel]
    have hc : (R.vals.elem.map fun el => ((List.range 12).filter fun i => el.ccurv i ≠ []).length).sum = R.ncurv := by
      conv_rhs => rw [a3]
      unfold HexaData.vals
      simp only [List.map_map]
      rfl
    rw [hc]
    unfold HexaData.vals
    rw [a3]
  refine ⟨S, R, a1, a2, hR ▸ b2, hd, hb, by rw [a3], a4, ?_, fun j i hj => ⟨(a5 j i hj).1, (a5 j i hj).2.1⟩⟩
  intro j hj b hb' f hf'
  rw [hb] at hb'
  rw [hd] at hf'
  rw [a4] at hj
  exact (((a5 j _ (List.getElem?_eq_getElem hj)).2.2 b f).1 ⟨hb', hf'⟩).2

/-- Links of the values, with finite numbers, are links of the doubles. -/
theorem linkedF_of_valid (M : HexaData F64) (hd : M.ndim = 2 ∨ M.ndim = 3) (hf : LinksFinite M) (C : Face → Face → Prop) (hv : Valid M.vals C) :
    LinkedF M C := by
  intro b hb x hx hx2 ht
  obtain ⟨y, y1, y2, y3, y4, y5, y6⟩ := hv b hb x (by rw [vals_length]; exact hx) hx2
    (by change IsLink (M.vals.bc x.1 b x.2); rw [vals_bc]; exact ht)
  have y3' : PointsTo (M.vals.bc x.1 b x.2) y := y3
  have y4' : (M.vals.bc y.1 b y.2).typ = (M.vals.bc x.1 b x.2).typ := y4
  have y5' : PointsTo (M.vals.bc y.1 b y.2) x := y5
  have y6' : (M.vals.bc x.1 b x.2).typ = nE → C x y := y6
  rw [vals_bc] at y3' y4' y5' y6'
  rw [vals_bc] at y4'
  rw [vals_length] at y1
  have y2' : y.2 < 2 * M.ndim := y2
  have hty : (M.bc y.1 b y.2).typ = (M.bc x.1 b x.2).typ := y4'
  obtain ⟨p, q⟩ := hf x.1 hx b hb x.2 hx2 ht
  obtain ⟨p', q'⟩ := hf y.1 y1 b hb y.2 y2' (by rw [hty]; exact ht)
  exact ⟨y, y1, by rcases hd with h | h <;> omega, ⟨p, q, y3'⟩, hty, ⟨p', q', y5'⟩, y6'⟩

/-- **C147.** In double precision `keep_elements` of a validly connected mesh whose linked faces have the same corners bit by bit keeps the chosen
elements in increasing order, and links of kept elements with kept elements, with exact new numbers (they need not be whole). Linked faces still
have the same corners, and the mesh passes `check_connectivity` with any tolerance that is not negative. -/
theorem C147 (M : HexaData F64) (hw : WFF M) (hs : M.nel ≤ 2 ^ 53) (elems : List Int) (A : KeepArgs M.vals elems) (ext : Name) (hE : ext ≠ nE)
    (hP : ext ≠ nP) (hf : LinksFinite M) (hv : Valid M.vals (SameCorners M)) :
    ∃ S R, Sorts S elems ∧ keepElementsF M elems ext = .ok R ∧ WFF R ∧ R.nel = elems.length ∧
      (∀ j i, S[j]? = some i → R.el j = { M.el i with bcs := (R.el j).bcs } ∧ ∀ b < M.nbc, ∀ f < 2 * M.ndim,
        (((M.bc i b f).typ ≠ nE ∧ (M.bc i b f).typ ≠ nP) → (R.bc j b f).vals = { (M.bc i b f).vals with own := (j : Int) + 1 }) ∧
        ((M.bc i b f).typ = nE ∨ (M.bc i b f).typ = nP → ∀ c g, PointsToF (M.bc i b f) (c, g) →
          (∀ q, S[q]? = some c → (R.bc j b f).typ = (M.bc i b f).typ ∧ PointsToF (R.bc j b f) (q, g)) ∧
          (c ∉ S → (R.bc j b f).typ = u3 ext ∧ (R.bc j b f).p3.val = 0 ∧ (R.bc j b f).p4.val = 0))) ∧
      LinksFinite R ∧ Valid R.vals (SameCorners R) ∧ LinkedF R (SameCorners R) ∧
      ∀ L, LibmBasic L → ∀ tol, NotNeg tol → R.checkConnectivityF L tol = .ok true := by
  have hl : LinksExist M.vals := by
    intro e he b hb f hf' hlk
    obtain ⟨y, y1, _, y3, _⟩ := hv b hb (e, f) he hf' hlk
    refine ⟨y.1, ?_, y3.1⟩
    rw [vals_length] at y1
    change y.1 < M.nel
    rw [hw.nel]; exact y1
  obtain ⟨S, R, a1, a2, a3, a4, a5, a6, a7, a8, a9⟩ := keepElementsF_exact M hw hs elems A ext hf hl
  obtain ⟨S', R', b1, b2, b3, b4, b5⟩ := keep_elements_valid M.vals (wf_vals M hw) elems A ext hE hP (SameCorners M) hv
  obtain rfl := sorts_unique a1 b1
  obtain rfl : R.vals = R' := by rw [a3] at b2; exact Except.ok.inj b2
  have hlen : S.length = elems.length := by simpa using a1.2.length_eq
  have hwR : WFF R := by
    refine ⟨by rw [a6, a7, hlen], fun el hel => b3.rows el.vals (List.mem_map_of_mem hel), by rw [a4]; exact hw.dim, fun el hel => ?_⟩
    obtain ⟨j, hj, rfl⟩ := List.getElem_of_mem hel
    rw [← R.el_eq_getElem j hj]
    rw [a7] at hj
    obtain ⟨h1, h2⟩ := a9 j _ (List.getElem?_eq_getElem hj)
    rw [h2]
    exact hw.grid (M.el S[j]) (M.el_mem _ h1)
  have hc : ∀ x y : Face, (∃ i c, S[x.1]? = some i ∧ S[y.1]? = some c ∧ SameCorners M (i, x.2) (c, y.2)) → SameCorners R x y := by
    rintro x y ⟨i, c, hi, hc, h⟩ a b d hd
    have e : ∀ j k, S[j]? = some k → ∀ f, faceCoord (R.el j) f a b d = faceCoord (M.el k) f a b d := by
      intro j k hj f
      rw [(a9 j k hj).2]
      rfl
    rw [e _ _ hi, e _ _ hc]
    exact h a b d hd
  have hvR : Valid R.vals (SameCorners R) := by
    intro b hb x hx hx2 hlk
    obtain ⟨y, y1, y2, y3, y4, y5, y6⟩ := b4 b hb x hx hx2 hlk
    exact ⟨y, y1, y2, y3, y4, y5, fun h => hc x y (y6 h)⟩
  have hlR := linkedF_of_valid R hwR.dim a8 _ hvR
  refine ⟨S, R, a1, a2, hwR, a6, ?_, a8, hvR, hlR, fun L hL tol ht => C135 L hL R hwR tol ht hlR⟩
  intro j i hj
  refine ⟨(a9 j i hj).2, fun b hb f hf' => ?_⟩
  obtain ⟨k1, k2⟩ := b5 j i hj b hb f hf'
  rw [vals_bc, vals_bc] at k1 k2
  have hjR : j < R.elem.length := by rw [a7]; exact (List.getElem?_eq_some_iff.1 hj).1
  refine ⟨fun h => k1 (fun h' => h'.elim h.1 h.2), fun hlk c g hp => ?_⟩
  obtain ⟨m1, m2⟩ := k2 hlk c g hp.2.2
  refine ⟨fun q hq => ?_, fun hn => m2 hn⟩
  obtain ⟨n1, n2⟩ := m1 q hq
  have n1' : (R.bc j b f).typ = (M.bc i b f).typ := n1
  obtain ⟨f1, f2⟩ := a8 j hjR b (a5 ▸ hb) f (a4 ▸ hf') (by rw [n1']; exact hlk)
  exact ⟨n1', f1, f2, n2⟩

/-- **C147, boxes.** -/
theorem C147_box (native : Endian) (nx ny : Nat) (xmin xmax ymin ymax : F64) (var : Var) (o1 o2 o3 o4 : Option (List Name))
    (A : BoxArgsF nx ny xmin xmax ymin ymax var o1 o2 o3 o4) (hS : ∀ b < boxNbc var, SidesOk o1 o2 o3 o4 b) (hsz : nx * ny ≤ 2 ^ 52)
    (elems : List Int) (hn : elems.Nodup) (hr : ∀ x ∈ elems, 0 ≤ x ∧ x < (nx * ny : Nat)) (ext : Name) (hE : ext ≠ nE) (hP : ext ≠ nP) :
    ∃ M R : HexaData F64, genBox native nx ny xmin xmax ymin ymax var o1 o2 o3 o4 true = .ok M ∧ keepElementsF M elems ext = .ok R ∧
      R.elem.length = elems.length ∧ ∀ L, LibmBasic L → ∀ tol, NotNeg tol → R.checkConnectivityF L tol = .ok true := by
  obtain ⟨M, h1, h2, h3, h4, h5, h6, h7, h8, h9, h10⟩ := genBoxF_extrudable native nx ny xmin xmax ymin ymax var o1 o2 o3 o4 A hS hsz
  have hf : LinksFinite M := fun e he b hb f hf' ht => ⟨(h9 _ (M.el_mem e he) b hb f hf' ht).1, (h9 _ (M.el_mem e he) b hb f hf' ht).2.1⟩
  obtain ⟨S, R, r1, r2, r3, r4, -, -, -, -, r5⟩ := C147 M h2 (by rw [h7]; exact hsz.trans (by norm_num)) elems
    ⟨hn, by change ∀ x ∈ elems, 0 ≤ x ∧ x < (M.nel : Int); rw [h7]; exact hr⟩ ext hE hP hf h10
  exact ⟨M, R, h1, r2, by rw [← r3.nel, r4], r5⟩

/-- A link number that is not a number is an error. -/
theorem keepBCF_nan (s : KeepState) (nel : Nat) (ext : Name) (iel off : Int) (r : BC F64) (ht : r.typ = nE ∨ r.typ = nP) (h : r.p3.IsNaN) :
    keepBCF s nel ext iel off r = .error .valueError := by
  unfold keepBCF truncF
  simp only [if_pos ht, if_pos h]
  rfl

namespace Samples

/-- Three of the six elements of a box with sides that are not representable exactly. -/
example : ∃ M R : HexaData F64,
    genBox .little 3 2 f0 tenth one oneNext ⟨2, 2, 1, 1, 0⟩ none none (some [['W'], ['t']]) (some [['v'], ['f']]) true = .ok M ∧
    keepElementsF M [4, 1, 2] ['W'] = .ok R ∧ R.elem.length = 3 ∧ R.checkConnectivityF libm 0 = .ok true := by
  have two : ∀ b < boxNbc ⟨2, 2, 1, 1, 0⟩, b = 0 ∨ b = 1 := by
    intro b hb
    have : boxNbc ⟨2, 2, 1, 1, 0⟩ = 2 := rfl
    omega
  obtain ⟨M, R, h1, h2, h3, h4⟩ := C147_box .little 3 2 f0 tenth one oneNext ⟨2, 2, 1, 1, 0⟩ none none (some [['W'], ['t']]) (some [['v'], ['f']])
    ⟨by norm_num, by norm_num, by norm_num, rangeTenth, rangeNext, (by simp), (by simp), (by rintro l ⟨⟩; decide), (by rintro l ⟨⟩; decide)⟩
    (by intro b hb; rcases two b hb with rfl | rfl <;> exact ⟨by decide, by decide, by decide⟩) (by norm_num)
    [4, 1, 2] (by decide) (by decide) ['W'] (by decide) (by decide)
  exact ⟨M, R, h1, h2, h3, h4 libm sqrt_basic 0 (fun _ => by rw [zeroF_val])⟩

end Samples

end Pymech
