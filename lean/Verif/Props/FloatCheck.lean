import Verif.Core.FloatConn
import Verif.Props.BoxFloat
import Verif.Props.Check

/-!
# C135: `check_connectivity` in double precision
-/

set_option autoImplicit false

namespace Pymech

open Spec Flt

namespace Spec

/-- The element and face numbers stored in a record are finite and are those of `y`. -/
def PointsToF (r : BC F64) (y : Face) : Prop := r.p3.Finite ∧ r.p4.Finite ∧ PointsTo r.vals y

/-- The metadata of a mesh agree with its element list, and each element has at least two points in x and y and one in z. -/
structure WFF (M : HexaData F64) : Prop where
  nel : M.nel = M.elem.length
  rows : ∀ el ∈ M.elem, el.rows = M.nbc
  dim : M.ndim = 2 ∨ M.ndim = 3
  grid : ∀ el ∈ M.elem, 2 ≤ el.pos.lx ∧ 2 ≤ el.pos.ly ∧ 1 ≤ el.pos.lz

/-- Every linked face points to an existing face with the same condition that points back; faces with `'E'` satisfy `C`. -/
def LinkedF (M : HexaData F64) (C : Face → Face → Prop) : Prop :=
  ∀ b < M.nbc, ∀ x : Face, x.1 < M.elem.length → x.2 < 2 * M.ndim → ((M.bc x.1 b x.2).typ = nE ∨ (M.bc x.1 b x.2).typ = nP) →
    ∃ y : Face, y.1 < M.elem.length ∧ y.2 < 6 ∧ PointsToF (M.bc x.1 b x.2) y ∧
      (M.bc y.1 b y.2).typ = (M.bc x.1 b x.2).typ ∧ PointsToF (M.bc y.1 b y.2) x ∧ ((M.bc x.1 b x.2).typ = nE → C x y)

/-- The computed distance of the centres of `x` and `y` is not larger than the computed limit. -/
def NearF (L : Libm) (M : HexaData F64) (tol : F64) (x y : Face) : Prop :=
  ∃ c c1 s0 s1, (M.el x.1).faceCenter x.2 = .ok c ∧ (M.el y.1).faceCenter y.2 = .ok c1 ∧
    (M.el x.1).smallestEdgeF L = .ok s0 ∧ (M.el y.1).smallestEdgeF L = .ok s1 ∧ gt (L.sqrt (sumSqF L c1 c)) (tol * pyMin s0 s1) = false

end Spec

section
variable {F : Type} [Add F] [Mul F] [Div F] [OfNat F 1] [OfNat F 4]

/-- `face_center` adds the corners in the order of the two other axes, with any kind of numbers. -/
theorem faceCenter_coords (el : Elem F) (f : Nat) (hf : f < 6) (hx : 0 < el.pos.lx) (hy : 0 < el.pos.ly) (hz : 0 < el.pos.lz) :
    el.faceCenter f = .ok ⟨
      1 / 4 * (faceCoord el f false false 0 + faceCoord el f false true 0 + faceCoord el f true false 0 + faceCoord el f true true 0),
      1 / 4 * (faceCoord el f false false 1 + faceCoord el f false true 1 + faceCoord el f true false 1 + faceCoord el f true true 1),
      1 / 4 * (faceCoord el f false false 2 + faceCoord el f false true 2 + faceCoord el f true false 2 + faceCoord el f true true 2)⟩ := by
  have hne : ¬ (el.pos.lx = 0 ∨ el.pos.ly = 0 ∨ el.pos.lz = 0) := by omega
  have hc : ∀ k, el.pos.corner k = .ok ⟨Spec.corner el k.1 k.2.1 k.2.2 0, Spec.corner el k.1 k.2.1 k.2.2 1,
      Spec.corner el k.1 k.2.1 k.2.2 2⟩ := by
    intro k; simp only [Arr.corner, hne, if_false, Spec.corner]
  unfold Elem.faceCenter
  have hcase : f = 0 ∨ f = 1 ∨ f = 2 ∨ f = 3 ∨ f = 4 ∨ f = 5 := by omega
  rcases hcase with rfl | rfl | rfl | rfl | rfl | rfl <;>
    (simp only [faceCorners, hc, bind, Except.bind]; rfl)

theorem faceCenter_invalid (el : Elem F) (i : Int) (hi : i < 0 ∨ 6 ≤ i) : el.faceCenter i = .error .unboundLocal := by
  have : faceCorners i = .error .unboundLocal := by
    unfold faceCorners
    rw [if_neg (by omega), if_neg (by omega), if_neg (by omega), if_neg (by omega), if_neg (by omega), if_neg (by omega)]
  unfold Elem.faceCenter
  rw [this]
  rfl

end

theorem truncF_fin {x : F64} (h : x.Finite) : truncF x = .ok (trunc x.val) := by
  unfold truncF
  rw [if_neg (not_nan h), if_pos h]

theorem truncF_ok {x : F64} {n : Int} (h : truncF x = .ok n) : x.Finite ∧ n = trunc x.val := by
  unfold truncF at h
  split_ifs at h with h1 h2
  exact ⟨h2, (Except.ok.inj h).symm⟩

theorem smallestEdgeF_ok (L : Libm) (el : Elem F64) (h : 2 ≤ el.pos.lx ∧ 2 ≤ el.pos.ly ∧ 1 ≤ el.pos.lz) : ∃ s, el.smallestEdgeF L = .ok s := by
  unfold Elem.smallestEdgeF
  rw [if_neg (by omega)]
  dsimp only
  split_ifs <;> exact ⟨_, rfl⟩

theorem bcAtF_ok (M : HexaData F64) (hw : WFF M) (e b f : Nat) (he : e < M.elem.length) (hb : b < M.nbc) (hf : f < 6) :
    (M.el e).bcAt b f = .ok (M.bc e b f) := by
  unfold Elem.bcAt
  have hm : M.el e ∈ M.elem := by
    rw [M.el_eq_getElem e he]
    exact List.getElem_mem he
  rw [hw.rows _ hm, if_neg (by omega), pyIndex_nat hf]
  rfl

theorem bcAtF_any (el : Elem F64) (b : Nat) (i : Int) :
    (∃ e, el.bcAt b i = .error e) ∨ (∃ k : Nat, k < 6 ∧ (i = k ∨ i = (k : Int) - 6) ∧ el.bcAt b i = .ok (el.bcs b k)) := by
  unfold Elem.bcAt
  split_ifs
  · left; exact ⟨_, rfl⟩
  · cases h : pyIndex 6 i with
    | error e => left; exact ⟨e, rfl⟩
    | ok k =>
      right
      obtain ⟨h1, h2⟩ := pyIndex_ok_iff.1 h
      exact ⟨k, h1, h2, rfl⟩

/-- One step of the loop. -/
theorem checkFaceF_iff (L : Libm) (M : HexaData F64) (hw : WFF M) (tol : F64) (e b f : Nat) (he : e < M.elem.length) (hb : b < M.nbc)
    (hf : f < 2 * M.ndim) :
    M.checkFaceF L tol (e, b, f) = .ok false ↔
      (((M.bc e b f).typ = nE ∨ (M.bc e b f).typ = nP) →
        ∃ y : Face, y.1 < M.elem.length ∧ y.2 < 6 ∧ PointsToF (M.bc e b f) y ∧
          (M.bc y.1 b y.2).typ = (M.bc e b f).typ ∧ PointsToF (M.bc y.1 b y.2) (e, f) ∧
          ((M.bc e b f).typ = nE → NearF L M tol (e, f) y)) := by
  have hf6 : f < 6 := by rcases hw.dim with h | h <;> omega
  have mem : ∀ e < M.elem.length, M.el e ∈ M.elem := fun e he => by
    rw [M.el_eq_getElem e he]
    exact List.getElem_mem he
  have ge := hw.grid _ (mem e he)
  obtain ⟨c, hfc⟩ : ∃ c, (M.el e).faceCenter f = .ok c := ⟨_, faceCenter_coords _ _ hf6 (by omega) (by omega) (by omega)⟩
  unfold HexaData.checkFaceF
  simp only [bcAtF_ok M hw e b f he hb hf6, hfc, bind, Except.bind]
  by_cases hl : (M.bc e b f).typ = nE ∨ (M.bc e b f).typ = nP
  swap
  · simp only [hl, if_false]
    exact ⟨fun _ h => h.elim, fun _ => rfl⟩
  simp only [hl, if_true]
  -- the numbers
  cases h3 : truncF (M.bc e b f).p3 with
  | error er =>
    refine ⟨fun h => (by cases h), fun h => ?_⟩
    obtain ⟨y, -, -, hp, -⟩ := h trivial
    rw [truncF_fin hp.1] at h3
    cases h3
  | ok n3 =>
  cases h4 : truncF (M.bc e b f).p4 with
  | error er =>
    refine ⟨fun h => (by cases h), fun h => ?_⟩
    obtain ⟨y, -, -, hp, -⟩ := h trivial
    rw [truncF_fin hp.2.1] at h4
    cases h4
  | ok n4 =>
  obtain ⟨f3, rfl⟩ := truncF_ok h3
  obtain ⟨f4, rfl⟩ := truncF_ok h4
  dsimp only
  -- the target element
  by_cases hr : trunc (M.bc e b f).p3.val - 1 < 0 ∨ trunc (M.bc e b f).p3.val - 1 ≥ M.nel
  · rw [if_pos hr]
    refine ⟨fun h => (by cases h), fun h => ?_⟩
    obtain ⟨y, hy1, _, hp, _⟩ := h trivial
    have : trunc (M.bc e b f).p3.val = (y.1 : Int) + 1 := hp.2.2.1
    rw [hw.nel] at hr
    omega
  rw [if_neg hr]
  rw [hw.nel] at hr
  obtain ⟨ce, hce⟩ : ∃ ce : Nat, trunc (M.bc e b f).p3.val - 1 = ce :=
    ⟨(trunc (M.bc e b f).p3.val - 1).toNat, by omega⟩
  have hcel : ce < M.elem.length := by omega
  rw [hce, pyIndex_nat hcel]
  simp only
  rcases bcAtF_any (M.el ce) b (trunc (M.bc e b f).p4.val - 1) with ⟨er, her⟩ | ⟨k, hk, hki, hok⟩
  · rw [her]
    refine ⟨fun h => (by cases h), fun h => ?_⟩
    obtain ⟨y, hy1, hy2, hp, _⟩ := h trivial
    have h1 : trunc (M.bc e b f).p3.val = (y.1 : Int) + 1 := hp.2.2.1
    have h2 : trunc (M.bc e b f).p4.val = (y.2 : Int) + 1 := hp.2.2.2
    have : y.1 = ce := by omega
    rw [show trunc (M.bc e b f).p4.val - 1 = (y.2 : Int) by omega] at her
    subst this
    rw [bcAtF_ok M hw _ _ _ hy1 hb hy2] at her
    cases her
  rw [hok, show (M.el ce).bcs b k = M.bc ce b k from rfl]
  simp only
  have huniq : ∀ y : Face, PointsToF (M.bc e b f) y → y.1 = ce ∧ (y.2 : Int) = trunc (M.bc e b f).p4.val - 1 := by
    intro y hp
    have h1 : trunc (M.bc e b f).p3.val = (y.1 : Int) + 1 := hp.2.2.1
    have h2 : trunc (M.bc e b f).p4.val = (y.2 : Int) + 1 := hp.2.2.2
    omega
  have hk' : ∀ y : Face, y.2 < 6 → PointsToF (M.bc e b f) y → y = (ce, k) := by
    intro y hy2 hp
    obtain ⟨u1, u2⟩ := huniq y hp
    apply Prod.ext
    · exact u1
    · show y.2 = k
      omega
  cases g3 : truncF (M.bc ce b k).p3 with
  | error er =>
    refine ⟨fun h => (by cases h), fun h => ?_⟩
    obtain ⟨y, -, hy2, hp, -, hq, -⟩ := h trivial
    rw [hk' y hy2 hp] at hq
    rw [truncF_fin hq.1] at g3
    cases g3
  | ok n3 =>
  obtain ⟨e3, rfl⟩ := truncF_ok g3
  dsimp only
  cases g4 : truncF (M.bc ce b k).p4 with
  | error er =>
    refine ⟨fun h => (by cases h), fun h => ?_⟩
    obtain ⟨y, -, hy2, hp, -, hq, -⟩ := h trivial
    rw [hk' y hy2 hp] at hq
    rw [truncF_fin hq.2.1] at g4
    cases g4
  | ok n4 =>
  obtain ⟨e4, rfl⟩ := truncF_ok g4
  dsimp only
  rcases hki with hki | hki
  swap
  · rw [hki]
    have : (M.el ce).faceCenter ((k : Int) - 6) = .error .unboundLocal := faceCenter_invalid _ _ (by omega)
    rw [this]
    refine ⟨fun h => (by cases h), fun h => ?_⟩
    obtain ⟨y, hy1, hy2, hp, _⟩ := h trivial
    have := (huniq y hp).2
    omega
  rw [hki]
  have gc := hw.grid _ (mem ce hcel)
  obtain ⟨c1, hfc1⟩ : ∃ c, (M.el ce).faceCenter k = .ok c := ⟨_, faceCenter_coords _ _ hk (by omega) (by omega) (by omega)⟩
  rw [hfc1]
  simp only
  change (if (M.bc ce b k).typ ≠ (M.bc e b f).typ ∨ trunc (M.bc ce b k).p3.val - 1 ≠ (e : Int) ∨ trunc (M.bc ce b k).p4.val - 1 ≠ (f : Int)
    then _ else _) = _ ↔ _
  by_cases hm : (M.bc ce b k).typ ≠ (M.bc e b f).typ ∨ trunc (M.bc ce b k).p3.val - 1 ≠ (e : Int) ∨ trunc (M.bc ce b k).p4.val - 1 ≠ (f : Int)
  · rw [if_pos hm]
    refine ⟨fun h => (by cases h), fun h => ?_⟩
    obtain ⟨y, hy1, hy2, hp, ht, hpb, _⟩ := h trivial
    rw [hk' y hy2 hp] at ht hpb
    have h1 : trunc (M.bc ce b k).p3.val = (e : Int) + 1 := hpb.2.2.1
    have h2 : trunc (M.bc ce b k).p4.val = (f : Int) + 1 := hpb.2.2.2
    rcases hm with hm | hm | hm
    · exact absurd ht hm
    · omega
    · omega
  rw [if_neg hm]
  push Not at hm
  obtain ⟨hm1, hm2, hm3⟩ := hm
  have hpt : PointsToF (M.bc e b f) (ce, k) :=
    ⟨f3, f4, show trunc (M.bc e b f).p3.val = (ce : Int) + 1 by omega, show trunc (M.bc e b f).p4.val = (k : Int) + 1 by omega⟩
  have hptb : PointsToF (M.bc ce b k) (e, f) :=
    ⟨e3, e4, show trunc (M.bc ce b k).p3.val = (e : Int) + 1 by omega, show trunc (M.bc ce b k).p4.val = (f : Int) + 1 by omega⟩
  by_cases hE : (M.bc e b f).typ = nE
  · rw [if_pos hE]
    obtain ⟨s0, hs0⟩ := smallestEdgeF_ok L _ ge
    obtain ⟨s1, hs1⟩ := smallestEdgeF_ok L _ gc
    have hfar : farF L (M.el e) c (M.el ce) c1 tol = .ok (gt (L.sqrt (sumSqF L c1 c)) (tol * pyMin s0 s1)) := by
      unfold farF
      rw [hs0, hs1]
      rfl
    rw [hfar, Except.ok.injEq]
    constructor
    · intro hn _
      exact ⟨(ce, k), hcel, hk, hpt, hm1, hptb, fun _ => ⟨c, c1, s0, s1, hfc, hfc1, hs0, hs1, hn⟩⟩
    · intro h
      obtain ⟨y, hy1, hy2, hp, ht, hpb, hC⟩ := h trivial
      rw [hk' y hy2 hp] at hC
      obtain ⟨d, d1, t0, t1, a1, a2, a3, a4, a5⟩ := hC hE
      cases hfc.symm.trans a1
      cases hfc1.symm.trans a2
      cases hs0.symm.trans a3
      cases hs1.symm.trans a4
      exact a5
  · rw [if_neg hE]
    refine ⟨fun _ _ => ⟨(ce, k), hcel, hk, hpt, hm1, hptb, fun h => absurd h hE⟩, fun _ => rfl⟩

/-- What `check_connectivity` accepts in double precision, for any C library. -/
theorem check_connectivityF_iff (L : Libm) (M : HexaData F64) (hw : WFF M) (tol : F64) :
    M.checkConnectivityF L tol = .ok true ↔ LinkedF M (NearF L M tol) := by
  have key : anyErr (M.checkFaceF L tol)
      (prod3 (List.range M.elem.length) (List.range M.nbc) (List.range (2 * M.ndim))) = .ok false ↔ LinkedF M (NearF L M tol) := by
    rw [anyErr_eq_false_iff]
    constructor
    · intro h b hb x hx hx2 hl
      have := h (x.1, b, x.2) (by simp [hx, hb, hx2])
      exact (checkFaceF_iff L M hw tol x.1 b x.2 hx hb hx2).1 this hl
    · rintro h ⟨e, b, f⟩ hm
      simp only [mem_prod3, List.mem_range] at hm
      exact (checkFaceF_iff L M hw tol e b f hm.1 hm.2.1 hm.2.2).2 fun hl => h b hm.2.1 (e, f) hm.1 hm.2.2 hl
  rw [← key]
  unfold HexaData.checkConnectivityF
  cases h : anyErr (M.checkFaceF L tol) (prod3 (List.range M.elem.length) (List.range M.nbc) (List.range (2 * M.ndim))) with
  | error e => exact ⟨fun h => (by cases h), fun h => (by cases h)⟩
  | ok b =>
    cases b
    · exact ⟨fun _ => rfl, fun _ => rfl⟩
    · exact ⟨fun h => (by cases h), fun h => (by cases h)⟩

namespace Spec

/-- What the first theorems need of the C library: zero and NaN have the expected square and root, and no root is negative. -/
structure LibmBasic (L : Libm) : Prop where
  sq0 : L.sq 0 = 0
  sqNan : L.sq nan = nan
  sqrt0 : L.sqrt 0 = 0
  sqrtNan : L.sqrt nan = nan
  sqrtPos : ∀ x, ¬ (L.sqrt x).IsNaN → 0 ≤ (L.sqrt x).val

/-- The corners of face `x` are those of face `y`, bit for bit and in the same order. -/
def SameCorners (M : HexaData F64) (x y : Face) : Prop :=
  ∀ a b, ∀ d < 3, faceCoord (M.el x.1) x.2 a b d = faceCoord (M.el y.1) y.2 a b d

/-- Not below zero (NaN is allowed). -/
def NotNeg (x : F64) : Prop := ¬ x.IsNaN → 0 ≤ x.val

end Spec

theorem zeroF_val : (0 : F64).val = 0 := by decide +kernel

theorem nan_isNaN : nan.IsNaN := by decide +kernel

theorem ofQ_false_zero : ofQ false 0 = 0 := by decide +kernel

theorem subF_self (x : F64) : x - x = 0 ∨ x - x = nan := by
  by_cases h : x.Finite
  · left
    rw [sub_fin h h, _root_.sub_self]
    cases x.neg <;> exact ofQ_false_zero
  · right
    change add x x.flip = nan
    unfold add
    by_cases hn : x.IsNaN
    · rw [if_pos (Or.inl hn)]
    · have hn' : ¬ x.flip.IsNaN := hn
      have h' : ¬ x.flip.Finite := h
      rw [if_neg (not_or.mpr ⟨hn, hn'⟩), if_neg h, if_neg]
      rintro (hc | hc)
      · exact h' hc
      · have : x.neg = !x.neg := hc
        cases hx : x.neg <;> rw [hx] at this <;> cases this

theorem nan_add (x : F64) : nan + x = nan := by
  change add nan x = nan
  unfold add
  rw [if_pos (Or.inl nan_isNaN)]

theorem add_nan (x : F64) : x + nan = nan := by
  change add x nan = nan
  unfold add
  rw [if_pos (Or.inr nan_isNaN)]

theorem zero_add_zero : (0 : F64) + 0 = 0 := by decide +kernel

theorem sumSqF_self (L : Libm) (hL : LibmBasic L) (c : V3 F64) : sumSqF L c c = 0 ∨ sumSqF L c c = nan := by
  unfold sumSqF
  have key : ∀ x : F64, L.sq (x - x) = 0 ∨ L.sq (x - x) = nan := fun x => by
    rcases subF_self x with h | h <;> rw [h]
    · exact Or.inl hL.sq0
    · exact Or.inr hL.sqNan
  rcases key c.x with h1 | h1 <;> rcases key c.y with h2 | h2 <;> rcases key c.z with h3 | h3 <;> rw [h1, h2, h3] <;>
    simp only [zero_add_zero, nan_add, add_nan, or_true, true_or]

theorem gt_nan (x y : F64) (h : x.IsNaN ∨ y.IsNaN) : gt x y = false := by
  unfold gt
  have : ¬ y ≤ x := fun hc => h.elim (fun h => hc.2.1 h) (fun h => hc.1 h)
  rw [decide_eq_false this, Bool.false_and]

theorem val_nonneg_key {x : F64} (h : 0 ≤ x.val) : le 0 x = true := by
  have : ¬ (x.neg = true ∧ x.mag ≠ 0) := fun hc => absurd ((val_neg_iff x).2 hc) (not_lt.2 h)
  unfold le
  rw [decide_eq_true_iff]
  dsimp only
  have e : (if (0 : F64).neg = true then -((0 : F64).mag : Int) else (0 : F64).mag) = 0 := by decide +kernel
  rw [e]
  by_cases hn : x.neg = true
  · rw [if_pos hn]
    have : x.mag = 0 := by
      by_contra hc
      exact this ⟨hn, hc⟩
    omega
  · rw [if_neg hn]
    omega

theorem gt_zero {m : F64} (h : NotNeg m) : gt 0 m = false := by
  by_cases hn : m.IsNaN
  · exact gt_nan _ _ (Or.inr hn)
  · have : (0 : F64) ≤ m := ⟨by decide +kernel, hn, val_nonneg_key (h hn)⟩
    unfold gt
    rw [decide_eq_true this, Bool.not_true, Bool.and_false]

theorem mul_notNeg {x y : F64} (hx : NotNeg x) (hy : NotNeg y) : NotNeg (x * y) := by
  intro hn
  have hxy : ¬ (x.IsNaN ∨ y.IsNaN) := fun hc => hn (by
    change (mul x y).IsNaN
    unfold mul
    rw [if_pos hc]
    exact nan_isNaN)
  have hx' := hx (fun h => hxy (Or.inl h))
  have hy' := hy (fun h => hxy (Or.inr h))
  by_cases hf : x.Finite ∧ y.Finite
  · rw [mul_fin hf.1 hf.2]
    have := ofQ_mono false (x.neg ^^ y.neg) 0 (x.val * y.val) (mul_nonneg hx' hy')
    rwa [ofQ_zero] at this
  · have e : x * y = mul x y := rfl
    rw [e] at hn ⊢
    unfold mul at hn ⊢
    rw [if_neg hxy, if_neg hf] at hn ⊢
    by_cases h0 : x.mag = 0 ∨ y.mag = 0
    · rw [if_pos h0] at hn
      exact absurd nan_isNaN hn
    · rw [if_neg h0]
      have sx : x.neg = false := by
        by_contra hc
        exact absurd ((val_neg_iff x).2 ⟨by simpa using hc, fun h => h0 (Or.inl h)⟩) (not_lt.2 hx')
      have sy : y.neg = false := by
        by_contra hc
        exact absurd ((val_neg_iff y).2 ⟨by simpa using hc, fun h => h0 (Or.inr h)⟩) (not_lt.2 hy')
      rw [sx, sy]
      unfold val
      dsimp only
      rw [if_neg (by decide)]
      exact magVal_nonneg _

theorem smallestEdgeF_root (L : Libm) (el : Elem F64) (s : F64) (h : el.smallestEdgeF L = .ok s) : ∃ x, s = L.sqrt x := by
  unfold Elem.smallestEdgeF at h
  dsimp only at h
  split_ifs at h <;> exact ⟨_, (Except.ok.inj h).symm⟩

/-- Faces with the same corners are near each other. -/
theorem near_of_corners (L : Libm) (hL : LibmBasic L) (M : HexaData F64) (tol : F64) (ht : NotNeg tol) (x y : Face)
    (gx : 2 ≤ (M.el x.1).pos.lx ∧ 2 ≤ (M.el x.1).pos.ly ∧ 1 ≤ (M.el x.1).pos.lz)
    (gy : 2 ≤ (M.el y.1).pos.lx ∧ 2 ≤ (M.el y.1).pos.ly ∧ 1 ≤ (M.el y.1).pos.lz) (hx : x.2 < 6) (hy : y.2 < 6) (h : SameCorners M x y) :
    NearF L M tol x y := by
  have cx := faceCenter_coords (M.el x.1) x.2 hx (by omega) (by omega) (by omega)
  have cy := faceCenter_coords (M.el y.1) y.2 hy (by omega) (by omega) (by omega)
  simp only [h _ _ 0 (by norm_num), h _ _ 1 (by norm_num), h _ _ 2 (by norm_num)] at cx
  obtain ⟨s0, hs0⟩ := smallestEdgeF_ok L _ gx
  obtain ⟨s1, hs1⟩ := smallestEdgeF_ok L _ gy
  refine ⟨_, _, s0, s1, cx, cy, hs0, hs1, ?_⟩
  obtain ⟨r0, rfl⟩ := smallestEdgeF_root L _ _ hs0
  obtain ⟨r1, rfl⟩ := smallestEdgeF_root L _ _ hs1
  rcases sumSqF_self L hL _ with e | e <;> rw [e]
  · rw [hL.sqrt0]
    refine gt_zero (mul_notNeg ht ?_)
    unfold pyMin
    split
    · exact hL.sqrtPos _
    · exact hL.sqrtPos _
  · rw [hL.sqrtNan]
    exact gt_nan _ _ (Or.inl nan_isNaN)

/-- **C135.** In double precision, with any C library, for every tolerance that is not negative: a mesh whose links are mutual and whose internal
faces have the corners of their partners, bit for bit and in the same order, passes `check_connectivity`. The coordinates may have any values. -/
theorem C135 (L : Libm) (hL : LibmBasic L) (M : HexaData F64) (hw : WFF M) (tol : F64) (ht : NotNeg tol) (h : LinkedF M (SameCorners M)) :
    M.checkConnectivityF L tol = .ok true := by
  rw [check_connectivityF_iff L M hw tol]
  have mem : ∀ e < M.elem.length, M.el e ∈ M.elem := fun e he => by
    rw [M.el_eq_getElem e he]
    exact List.getElem_mem he
  intro b hb x hx hx2 hl
  obtain ⟨y, h1, h2, h3, h4, h5, h6⟩ := h b hb x hx hx2 hl
  refine ⟨y, h1, h2, h3, h4, h5, fun hE => ?_⟩
  exact near_of_corners L hL M tol ht x y (hw.grid _ (mem _ hx)) (hw.grid _ (mem _ h1)) (by rcases hw.dim with h | h <;> omega) h2 (h6 hE)

/-- **C135, links.** A mesh that passes has finite link numbers and mutual links, whatever its coordinates are. -/
theorem C135_links (L : Libm) (M : HexaData F64) (hw : WFF M) (tol : F64) (h : M.checkConnectivityF L tol = .ok true) :
    LinkedF M (fun _ _ => True) := by
  intro b hb x hx hx2 hl
  obtain ⟨y, h1, h2, h3, h4, h5, -⟩ := (check_connectivityF_iff L M hw tol).1 h b hb x hx hx2 hl
  exact ⟨y, h1, h2, h3, h4, h5, fun _ => trivial⟩

theorem sqrt_basic : LibmBasic libm where
  sq0 := by decide +kernel
  sqNan := by decide +kernel
  sqrt0 := by decide +kernel
  sqrtNan := by decide +kernel
  sqrtPos := by
    intro x hn
    change ¬ (Flt.sqrt x).IsNaN at hn
    change 0 ≤ (Flt.sqrt x).val
    unfold Flt.sqrt at hn ⊢
    by_cases h1 : x.IsNaN
    · rw [if_pos h1] at hn
      exact absurd nan_isNaN hn
    rw [if_neg h1] at hn ⊢
    by_cases h2 : x.mag = 0
    · rw [if_pos h2]
      rw [(val_zero_iff x).2 h2]
    rw [if_neg h2] at hn ⊢
    by_cases h3 : x.neg = true
    · rw [if_pos h3] at hn
      exact absurd nan_isNaN hn
    rw [if_neg h3] at hn ⊢
    have hx : 0 ≤ x.val := not_lt.1 fun hc => h3 ((val_neg_iff x).1 hc).1
    by_cases h4 : x.Finite
    · rw [if_pos h4]
      have : 0 ≤ rootQ x.val := by
        unfold rootQ
        dsimp only
        split <;> positivity
      have := ofQ_mono false false 0 _ this
      rwa [ofQ_zero] at this
    · rw [if_neg h4]
      exact hx

/-! ### `gen_box` -/

theorem wrLinkF_points (t : Name) (a b c d : Nat) (hc : c + 1 ≤ 2 ^ 53) (hd : d + 1 ≤ 2 ^ 53) (r : BC F64) :
    PointsToF (wrLink t a b (c + 1) (d + 1) r) (c, d) := by
  refine ⟨(natCast_exact _ hc).1, (natCast_exact _ hd).1, ?_⟩
  rw [wrLink_vals _ _ _ _ _ hc hd]
  exact wrLink_points _ _ _ _ _ _

theorem wrExtF_points (a b c d : Nat) (hc : c + 1 ≤ 2 ^ 53) (hd : d + 1 ≤ 2 ^ 53) (r : BC F64) :
    PointsToF (wrExt nP a b (c + 1) (d + 1) r) (c, d) := by
  refine ⟨?_, ?_, ?_⟩
  · unfold wrExt
    rw [if_pos rfl]
    exact (natCast_exact _ hc).1
  · unfold wrExt
    rw [if_pos rfl]
    exact (natCast_exact _ hd).1
  · rw [wrExt_vals _ _ _ _ _ hc hd]
    exact wrExt_points _ _ _ _ _

theorem wrExtF_typ (bc : Name) (a b c d : Nat) (r : BC F64) : (wrExt bc a b c d r).typ = u3 bc := by
  unfold wrExt; split_ifs <;> rfl

/-- The box in double precision has mutual links, and neighbours have the same corners. -/
theorem genBoxF_linked (native : Endian) (nx ny : Nat) (xmin xmax ymin ymax : F64) (var : Var) (o1 o2 o3 o4 : Option (List Name))
    (A : BoxArgsF nx ny xmin xmax ymin ymax var o1 o2 o3 o4) (hS : ∀ b < boxNbc var, SidesOk o1 o2 o3 o4 b) :
    ∃ M : HexaData F64, genBox native nx ny xmin xmax ymin ymax var o1 o2 o3 o4 true = .ok M ∧ WFF M ∧ LinkedF M (SameCorners M) := by
  obtain ⟨M, h1, h2, h3, h4⟩ := genBox_any (native := native) (internal := true) A.nx A.ny (range_pos A.x) (range_pos A.y) A.l1 A.l2 A.l3 A.l4
  have hnbc : M.nbc = boxNbc var := by rw [h2]; rfl
  have hndim : M.ndim = 2 := by rw [h2]; rfl
  have hnel : M.nel = nx * ny := by rw [h2]; rfl
  have hsize := A.size
  have hny := A.ny
  have hnx := A.nx
  have bc : ∀ i < nx, ∀ j < ny, ∀ b < boxNbc var, ∀ f, M.bc (i + nx * j) b f =
      boxOuter nx ny i j (sideBC o1 b) (sideBC o2 b) (sideBC o3 b) (sideBC o4 b) f (boxInner nx ny i j f BC.zero) := by
    intro i hi j hj b hb f
    unfold HexaData.bc
    rw [h4 i hi j hj]
    simp only [if_pos hb, if_true]
  have bcS : ∀ i < nx, ∀ b < boxNbc var, M.bc (i + nx * 0) b 0 =
      wrExt (sideBC o3 b) (elnum i 0 nx + 1) 1 (elnum i (ny - 1) nx + 1) 3 (boxInner nx ny i 0 0 BC.zero) := by
    intro i hi b hb; rw [bc i hi 0 A.ny b hb]; simp [boxOuter]
  have bcN : ∀ i < nx, ∀ b < boxNbc var, M.bc (i + nx * (ny - 1)) b 2 =
      wrExt (sideBC o4 b) (elnum i (ny - 1) nx + 1) 3 (elnum i 0 nx + 1) 1 (boxInner nx ny i (ny - 1) 2 BC.zero) := by
    intro i hi b hb; rw [bc i hi (ny - 1) (by omega) b hb]; simp [boxOuter]
  have bcW : ∀ j < ny, ∀ b < boxNbc var, M.bc (0 + nx * j) b 3 =
      wrExt (sideBC o1 b) (elnum 0 j nx + 1) 4 (elnum (nx - 1) j nx + 1) 2 (boxInner nx ny 0 j 3 BC.zero) := by
    intro j hj b hb; rw [bc 0 A.nx j hj b hb]; simp [boxOuter]
  have bcE : ∀ j < ny, ∀ b < boxNbc var, M.bc (nx - 1 + nx * j) b 1 =
      wrExt (sideBC o2 b) (elnum (nx - 1) j nx + 1) 2 (elnum 0 j nx + 1) 4 (boxInner nx ny (nx - 1) j 1 BC.zero) := by
    intro j hj b hb; rw [bc (nx - 1) (by omega) j hj b hb]; simp [boxOuter]
  have in0 : ∀ i < nx, ∀ j, j + 1 < ny → ∀ b < boxNbc var, M.bc (i + nx * (j + 1)) b 0 =
      wrLink nE (elnum i (j + 1) nx + 1) 1 (elnum i j nx + 1) 3 BC.zero := by
    intro i hi j hj b hb; rw [bc i hi (j + 1) hj b hb]; simp [boxOuter, boxInner]
  have in2 : ∀ i < nx, ∀ j, j + 1 < ny → ∀ b < boxNbc var, M.bc (i + nx * j) b 2 =
      wrLink nE (elnum i j nx + 1) 3 (elnum i (j + 1) nx + 1) 1 BC.zero := by
    intro i hi j hj b hb; rw [bc i hi j (by omega) b hb]
    simp [boxOuter, boxInner, show j ≠ ny - 1 by omega]
  have in1 : ∀ i, i + 1 < nx → ∀ j < ny, ∀ b < boxNbc var, M.bc (i + nx * j) b 1 =
      wrLink nE (elnum i j nx + 1) 2 (elnum (i + 1) j nx + 1) 4 BC.zero := by
    intro i hi j hj b hb; rw [bc i (by omega) j hj b hb]
    simp [boxOuter, boxInner, show i ≠ nx - 1 by omega]
  have in3 : ∀ i, i + 1 < nx → ∀ j < ny, ∀ b < boxNbc var, M.bc (i + 1 + nx * j) b 3 =
      wrLink nE (elnum (i + 1) j nx + 1) 4 (elnum i j nx + 1) 2 BC.zero := by
    intro i hi j hj b hb; rw [bc (i + 1) hi j hj b hb]; simp [boxOuter, boxInner]
  -- positions of the corners
  have cor : ∀ i < nx, ∀ j < ny, ∀ sx sy sz : Bool, ∀ d < 3, Spec.corner (M.el (i + nx * j)) sx sy sz d =
      if d = 0 then gridF xmin (xmax - xmin) nx (i + if sx then 1 else 0) else if d = 1 then gridF ymin (ymax - ymin) ny (j + if sy then 1 else 0)
      else 0 := by
    intro i hi j hj sx sy sz d hd
    unfold Spec.corner
    rw [h4 i hi j hj]
    have hd' : d = 0 ∨ d = 1 ∨ d = 2 := by omega
    rcases hd' with rfl | rfl | rfl <;> cases sx <;> cases sy <;> cases sz <;> rfl
  have same02 : ∀ i < nx, ∀ j, j + 1 < ny → SameCorners M (i + nx * (j + 1), 0) (i + nx * j, 2) := by
    intro i hi j hj a b d hd
    simp only [faceCoord, cor i hi (j + 1) hj _ _ _ d hd, cor i hi j (by omega) _ _ _ d hd]
    simp
  have same13 : ∀ i, i + 1 < nx → ∀ j < ny, SameCorners M (i + nx * j, 1) (i + 1 + nx * j, 3) := by
    intro i hi j hj a b d hd
    simp only [faceCoord, cor i (by omega) j hj _ _ _ d hd, cor (i + 1) hi j hj _ _ _ d hd]
    simp
  have symm : ∀ x y, SameCorners M x y → SameCorners M y x := fun x y h a b d hd => (h a b d hd).symm
  have S : ∀ b < boxNbc var, sideBC o1 b ≠ nE ∧ sideBC o2 b ≠ nE ∧ sideBC o3 b ≠ nE ∧ sideBC o4 b ≠ nE := fun b hb => by
    have := (hS b hb).1
    exact ⟨(this o1 (by simp)).2, (this o2 (by simp)).2, (this o3 (by simp)).2, (this o4 (by simp)).2⟩
  have extP : ∀ bc : Name, bc ≠ nE → ∀ a b c d (r : BC F64), ((wrExt bc a b c d r).typ = nE ∨ (wrExt bc a b c d r).typ = nP) → bc = nP := by
    intro bc hne a b c d r hl
    rw [wrExtF_typ] at hl
    rcases hl with h | h
    · exact absurd ((u3_single bc 'E').1 h) hne
    · exact (u3_single bc 'P').1 h
  have el : ∀ i < nx, ∀ j < ny, elnum i j nx + 1 ≤ 2 ^ 53 := fun i hi j hj => elnum_le nx ny i j _ hi hj hsize
  have nPE : u3 nP ≠ nE := by decide
  refine ⟨M, h1, ⟨by rw [hnel, h3], ?_, Or.inl hndim, ?_⟩, ?_⟩
  · intro el hel
    obtain ⟨e, he, rfl⟩ := List.getElem_of_mem hel
    rw [← M.el_eq_getElem e he]
    obtain ⟨i, hi, j, hj, rfl⟩ := elnum_cases (h3 ▸ he)
    rw [h4 i hi j hj, hnbc]; rfl
  · intro el hel
    obtain ⟨e, he, rfl⟩ := List.getElem_of_mem hel
    rw [← M.el_eq_getElem e he]
    obtain ⟨i, hi, j, hj, rfl⟩ := elnum_cases (h3 ▸ he)
    rw [h4 i hi j hj]
    exact ⟨le_rfl, le_rfl, le_rfl⟩
  · intro b hb
    rw [hnbc] at hb
    rw [h3, hndim]
    obtain ⟨ne1, ne2, ne3, ne4⟩ := S b hb
    have hSb := hS b hb
    rintro ⟨e, f⟩ he hf hl
    dsimp only at he hf hl ⊢
    obtain ⟨i, hi, j, hj, rfl⟩ := elnum_cases he
    have hf' : f = 0 ∨ f = 1 ∨ f = 2 ∨ f = 3 := by omega
    rcases hf' with rfl | rfl | rfl | rfl
    · rcases Nat.eq_zero_or_pos j with rfl | hj0
      · rw [bcS i hi b hb] at hl ⊢
        have hP := extP _ ne3 _ _ _ _ _ hl
        refine ⟨(i + nx * (ny - 1), 2), elnum_lt hi (by omega), by omega, ?_⟩
        dsimp only
        rw [bcN i hi b hb, hSb.2.2.1 hP, hP]
        exact ⟨wrExtF_points _ _ _ 2 (el i hi (ny - 1) (by omega)) (by norm_num) _, by rw [wrExtF_typ, wrExtF_typ],
          wrExtF_points _ _ _ 0 (el i hi 0 hny) (by norm_num) _, fun h => absurd h (by rw [wrExtF_typ]; exact nPE)⟩
      · obtain ⟨j, rfl⟩ : ∃ k, j = k + 1 := ⟨j - 1, by omega⟩
        rw [in0 i hi j hj b hb]
        refine ⟨(i + nx * j, 2), elnum_lt hi (by omega), by omega, ?_⟩
        dsimp only
        rw [in2 i hi j hj b hb]
        exact ⟨wrLinkF_points _ _ _ _ 2 (el i hi j (by omega)) (by norm_num) _, rfl,
          wrLinkF_points _ _ _ _ 0 (el i hi (j + 1) hj) (by norm_num) _, fun _ => same02 i hi j hj⟩
    · by_cases hi1 : i + 1 < nx
      · rw [in1 i hi1 j hj b hb]
        refine ⟨(i + 1 + nx * j, 3), elnum_lt hi1 hj, by omega, ?_⟩
        dsimp only
        rw [in3 i hi1 j hj b hb]
        exact ⟨wrLinkF_points _ _ _ _ 3 (el (i + 1) hi1 j hj) (by norm_num) _, rfl,
          wrLinkF_points _ _ _ _ 1 (el i hi j hj) (by norm_num) _, fun _ => same13 i hi1 j hj⟩
      · obtain rfl : i = nx - 1 := by omega
        rw [bcE j hj b hb] at hl ⊢
        have hP := extP _ ne2 _ _ _ _ _ hl
        refine ⟨(0 + nx * j, 3), elnum_lt hnx hj, by omega, ?_⟩
        dsimp only
        rw [bcW j hj b hb, hSb.2.1.2 hP, hP]
        exact ⟨wrExtF_points _ _ _ 3 (el 0 hnx j hj) (by norm_num) _, by rw [wrExtF_typ, wrExtF_typ],
          wrExtF_points _ _ _ 1 (el (nx - 1) hi j hj) (by norm_num) _, fun h => absurd h (by rw [wrExtF_typ]; exact nPE)⟩
    · by_cases hj1 : j + 1 < ny
      · rw [in2 i hi j hj1 b hb]
        refine ⟨(i + nx * (j + 1), 0), elnum_lt hi hj1, by omega, ?_⟩
        dsimp only
        rw [in0 i hi j hj1 b hb]
        exact ⟨wrLinkF_points _ _ _ _ 0 (el i hi (j + 1) hj1) (by norm_num) _, rfl,
          wrLinkF_points _ _ _ _ 2 (el i hi j hj) (by norm_num) _, fun _ => symm _ _ (same02 i hi j hj1)⟩
      · obtain rfl : j = ny - 1 := by omega
        rw [bcN i hi b hb] at hl ⊢
        have hP := extP _ ne4 _ _ _ _ _ hl
        refine ⟨(i + nx * 0, 0), elnum_lt hi hny, by omega, ?_⟩
        dsimp only
        rw [bcS i hi b hb, hSb.2.2.2 hP, hP]
        exact ⟨wrExtF_points _ _ _ 0 (el i hi 0 hny) (by norm_num) _, by rw [wrExtF_typ, wrExtF_typ],
          wrExtF_points _ _ _ 2 (el i hi (ny - 1) hj) (by norm_num) _, fun h => absurd h (by rw [wrExtF_typ]; exact nPE)⟩
    · rcases Nat.eq_zero_or_pos i with rfl | hi0
      · rw [bcW j hj b hb] at hl ⊢
        have hP := extP _ ne1 _ _ _ _ _ hl
        refine ⟨(nx - 1 + nx * j, 1), elnum_lt (by omega) hj, by omega, ?_⟩
        dsimp only
        rw [bcE j hj b hb, hSb.2.1.1 hP, hP]
        exact ⟨wrExtF_points _ _ _ 1 (el (nx - 1) (by omega) j hj) (by norm_num) _, by rw [wrExtF_typ, wrExtF_typ],
          wrExtF_points _ _ _ 3 (el 0 hnx j hj) (by norm_num) _, fun h => absurd h (by rw [wrExtF_typ]; exact nPE)⟩
      · obtain ⟨i, rfl⟩ : ∃ k, i = k + 1 := ⟨i - 1, by omega⟩
        rw [in3 i hi j hj b hb]
        refine ⟨(i + nx * j, 1), elnum_lt (by omega) hj, by omega, ?_⟩
        dsimp only
        rw [in1 i hi j hj b hb]
        exact ⟨wrLinkF_points _ _ _ _ 1 (el i (by omega) j hj) (by norm_num) _, rfl,
          wrLinkF_points _ _ _ _ 3 (el (i + 1) hi j hj) (by norm_num) _, fun _ => symm _ _ (same13 i hi j hj)⟩

/-- **C135, boxes.** What `gen_box` builds in double precision passes `check_connectivity`, even with tolerance zero, also where rounding has
made elements flat. -/
theorem C135_box (L : Libm) (hL : LibmBasic L) (native : Endian) (nx ny : Nat) (xmin xmax ymin ymax : F64) (var : Var)
    (o1 o2 o3 o4 : Option (List Name)) (A : BoxArgsF nx ny xmin xmax ymin ymax var o1 o2 o3 o4) (hS : ∀ b < boxNbc var, SidesOk o1 o2 o3 o4 b)
    (tol : F64) (ht : NotNeg tol) :
    ∃ M : HexaData F64, genBox native nx ny xmin xmax ymin ymax var o1 o2 o3 o4 true = .ok M ∧ M.checkConnectivityF L tol = .ok true := by
  obtain ⟨M, h1, h2, h3⟩ := genBoxF_linked native nx ny xmin xmax ymin ymax var o1 o2 o3 o4 A hS
  exact ⟨M, h1, C135 L hL M h2 tol ht h3⟩

/-- Three by two elements from 0 to 0.1 and from 1 to the next double, with tolerance zero and a correctly rounding library. -/
example : ∃ M : HexaData F64, genBox .little 3 2 f0 tenth one oneNext ⟨2, 2, 1, 1, 0⟩ none none (some [['W'], ['t']]) (some [['v'], ['f']]) true = .ok M ∧
    M.checkConnectivityF libm 0 = .ok true := by
  refine C135_box libm sqrt_basic .little 3 2 f0 tenth one oneNext ⟨2, 2, 1, 1, 0⟩ _ _ _ _
    ⟨by norm_num, by norm_num, by norm_num, rangeTenth, rangeNext, (by simp), (by simp), ?_, ?_⟩ ?_ 0 (fun _ => by rw [zeroF_val])
  · rintro l ⟨⟩
    decide
  · rintro l ⟨⟩
    decide
  · intro b hb
    have : b = 0 ∨ b = 1 := by
      have : boxNbc ⟨2, 2, 1, 1, 0⟩ = 2 := rfl
      omega
    rcases this with rfl | rfl <;> exact ⟨by decide, by decide, by decide⟩

end Pymech
