import Verif.Lemmas.RoundTrip
import Verif.Lemmas.Print
import Mathlib.Logic.Relation

/-!
# Field files: C01–C05, C12, C14, C15
-/

namespace Pymech

open Spec

/-! ### What is the same after a round trip -/

/-- `M'` holds the stored components of `M`, each value mapped by `φ`, and zeros elsewhere. -/
def Spec.Carried {F G : Type} [Zero F] [Zero G] (φ : F → G) (M : HexaData F) (M' : HexaData G) : Prop :=
  ∀ i < M.nel, ∀ f, Shape M.lr1 ((M'.el i).arr f) ∧ count M.var f ≤ ((M'.el i).arr f).n ∧
    (∀ d < count M.var f, ∀ z < M.lr1.z, ∀ y < M.lr1.y, ∀ x < M.lr1.x,
      ((M'.el i).arr f).dat d z y x = φ (((M.el i).arr f).dat d z y x)) ∧
    ∀ d, count M.var f ≤ d → ∀ z y x, ((M'.el i).arr f).dat d z y x = 0

/-- The same field up to the byte order. -/
structure Spec.SameField {G : Type} [Zero G] (M M' : HexaData G) : Prop where
  ndim : M'.ndim = M.ndim
  nel : M'.nel = M.nel
  lx : M'.lr1.x = M.lr1.x
  ly : M'.lr1.y = M.lr1.y
  lz : M'.lr1.z = M.lr1.z
  var : M'.var = M.var
  time : M'.time = M.time
  istep : M'.istep = M.istep
  wdsz : M'.wdsz = M.wdsz
  elmap : M'.elmap = M.elmap
  len : M'.elem.length = M.elem.length
  data : ∀ i < M.nel, ∀ f, Shape M.lr1 ((M'.el i).arr f) ∧ Shape M.lr1 ((M.el i).arr f) ∧
    ∀ d, ∀ z < M.lr1.z, ∀ y < M.lr1.y, ∀ x < M.lr1.x, ((M'.el i).arr f).dat d z y x = ((M.el i).arr f).dat d z y x

theorem Spec.SameField.trans {G : Type} [Zero G] {M1 M2 M3 : HexaData G} (h : SameField M1 M2) (h' : SameField M2 M3) :
    SameField M1 M3 where
  ndim := h'.ndim.trans h.ndim
  nel := h'.nel.trans h.nel
  lx := h'.lx.trans h.lx
  ly := h'.ly.trans h.ly
  lz := h'.lz.trans h.lz
  var := h'.var.trans h.var
  time := h'.time.trans h.time
  istep := h'.istep.trans h.istep
  wdsz := h'.wdsz.trans h.wdsz
  elmap := h'.elmap.trans h.elmap
  len := h'.len.trans h.len
  data i hi f := by
    obtain ⟨a1, a2, a3⟩ := h.data i hi f
    obtain ⟨b1, b2, b3⟩ := h'.data i (by rw [h.nel]; exact hi) f
    refine ⟨⟨b1.1.trans h.lx, b1.2.1.trans h.ly, b1.2.2.trans h.lz⟩, a2, fun d z hz y hy x hx => ?_⟩
    rw [b3 d z (by rw [h.lz]; exact hz) y (by rw [h.ly]; exact hy) x (by rw [h.lx]; exact hx), a3 d z hz y hy x hx]

variable {F G : Type} [FloatTy F] [FloatTy G]

/-! ### Round trip -/

/-- The general form: `φ` describes what storing a number in `wdsz` bytes does to it. -/
theorem roundtrip (φ : F → G) (native native' : Endian) (M : HexaData F) (hM : Storable M)
    (hw : wordSize F M.wdsz = M.wdsz)
    (hφ : ∀ e a d b, Holds e M.wdsz a d b → ∀ z < a.lz, ∀ y < a.ly, ∀ x < a.lx,
      (bufVal e M.wdsz b ((z * a.ly + y) * a.lx + x) : G) = φ (a.dat d z y x)) :
    ∃ content, writenek native M = (content, none) ∧ ∃ M' : HexaData G, readnek native' [] content = .ok M' ∧
      SameMeta (M.endian.getD native) M M' ∧ M'.time = printed 13 M.time ∧ Carried φ M M' := by
  obtain ⟨head, tail, h1, -, -, -, M', h2, h3, ht, h4⟩ := hM.read (G := G) native native' hw
  refine ⟨head ++ tail, h1, M', h2 tail, h3, ht, fun i hi f => ?_⟩
  obtain ⟨a, b, c, d⟩ := h4 i hi f
  refine ⟨a, b, fun k hk z hz y hy x hx => ?_, c⟩
  obtain ⟨bt, hh, hv⟩ := d k hk
  obtain ⟨⟨s1, s2, s3⟩, -⟩ := hM.shape i hi f (by omega)
  rw [hv, ← s1, ← s2]
  exact hφ _ _ _ _ hh z (by omega) y (by omega) x (by omega)

/-- A field that was read back can be stored again. -/
theorem Spec.Storable.of_read {M : HexaData F} (hM : Storable M) (e : Endian) (φ : F → G) (M' : HexaData G)
    (hm : SameMeta e M M') (ht : M'.time = printed 13 M.time) (hc : Carried φ M M') : Storable M' where
  wdsz := by rw [hm.wdsz]; exact hM.wdsz
  len := by rw [hm.len, hm.nel]
  shape i hi f _ := by
    obtain ⟨a, b, -⟩ := hc i (by rw [← hm.nel]; exact hi) f
    rw [hm.var]
    exact ⟨⟨a.1.trans hm.lx.symm, a.2.1.trans hm.ly.symm, a.2.2.trans hm.lz.symm⟩, b⟩
  map := by rw [hm.elmap, hm.nel]; exact hM.map
  small := by rw [hm.nel]; exact hM.small
  dim := by rw [hm.ndim, hm.lz]; exact hM.dim
  pos := by rw [hm.ndim, hm.var]; exact hM.pos
  vel := by rw [hm.ndim, hm.var]; exact hM.vel
  pres := by rw [hm.var]; exact hM.pres
  temp := by rw [hm.var]; exact hM.temp
  something := by rw [hm.var]; exact hM.something
  mapLen := by rw [hm.elmap, hm.nel]; exact hM.mapLen
  mapAll := by rw [hm.elmap, hm.nel]; exact hM.mapAll
  points := by rw [hm.ndim, hm.lx, hm.ly]; exact hM.points
  fits hd hhd := by
    obtain ⟨hd0, h1, h2⟩ := headerW_ok M hM.wdsz
    obtain ⟨hd1, h1', h2'⟩ := headerW_ok M' (by rw [hm.wdsz]; exact hM.wdsz)
    rw [h1'] at hhd
    cases hhd
    have := hM.fits hd0 h1
    rw [h2] at this
    rw [h2']
    unfold Header.text at this ⊢
    dsimp only at this ⊢
    rw [hm.wdsz, hm.lx, hm.ly, hm.lz, hm.nel, hm.istep, hm.var, ht, fmtE_printed]
    exact this

/-- **C01**. Double precision: everything comes back bit for bit, except the time, which keeps fourteen digits. -/
theorem C01_roundtrip (native native' : Endian) (M : HexaData F64) (hM : Storable M) (h8 : M.wdsz = 8) :
    ∃ content, writenek native M = (content, none) ∧ ∃ M' : HexaData F64, readnek native' [] content = .ok M' ∧
      SameMeta (M.endian.getD native) M M' ∧ Carried id M M' := by
  obtain ⟨c, h1, M', h2, h3, -, h4⟩ := roundtrip (G := F64) id native native' M hM (by rw [h8]; rfl) (by
    rw [h8]
    intro e a d b h z hz y hy x hx
    exact bufVal_holds8 e a d b h z y x hz hy hx)
  exact ⟨c, h1, M', h2, h3, h4⟩

/-- **C01** with a time of at most fourteen digits, which then also comes back bit for bit. -/
theorem C01_time_exact (native native' : Endian) (M : HexaData F64) (hM : Storable M) (h8 : M.wdsz = 8)
    (ht : HasDigits 13 M.time) :
    ∃ content, writenek native M = (content, none) ∧ ∃ M' : HexaData F64, readnek native' [] content = .ok M' ∧
      M'.time = M.time ∧ SameMeta (M.endian.getD native) M M' ∧ Carried id M M' := by
  obtain ⟨c, h1, M', h2, h3, h4⟩ := C01_roundtrip native native' M hM h8
  exact ⟨c, h1, M', h2, h3.time.exact ht, h3, h4⟩

/-! ### Single precision -/

/-- Item types for which rounding to single precision and widening again is stable. -/
class StableFloat (G : Type) [FloatTy G] : Prop where
  stable : ∀ y : F32, (FloatTy.ofF32 (FloatTy.toF32 (FloatTy.ofF32 y : G)) : G) = FloatTy.ofF32 y

instance : StableFloat F32 := ⟨fun _ => rfl⟩

instance : StableFloat F64 := ⟨Flt.toF64_stable⟩

/-- Two fields that carry related values of a third. -/
theorem Spec.Carried.sameField {H : Type} [FloatTy H] {φ : F → G} {ψ : H → G} {e e' : Endian} {M : HexaData F} {N : HexaData H} {M1 M2 : HexaData G}
    (hm1 : SameMeta e M M1) (hm2 : SameMeta e' N M2) (hc1 : Carried φ M M1) (hc2 : Carried ψ N M2)
    (h1 : N.ndim = M.ndim) (h2 : N.nel = M.nel) (h3 : N.lr1.x = M.lr1.x) (h4 : N.lr1.y = M.lr1.y) (h5 : N.lr1.z = M.lr1.z)
    (h6 : N.var = M.var) (h7 : M2.time = M1.time) (h8 : N.istep = M.istep) (h9 : N.wdsz = M.wdsz) (h10 : N.elmap = M.elmap)
    (hv : ∀ i < M.nel, ∀ f, ∀ d < count M.var f, ∀ z < M.lr1.z, ∀ y < M.lr1.y, ∀ x < M.lr1.x,
      ψ (((N.el i).arr f).dat d z y x) = φ (((M.el i).arr f).dat d z y x)) : SameField M1 M2 where
  ndim := by rw [hm1.ndim, hm2.ndim, h1]
  nel := by rw [hm1.nel, hm2.nel, h2]
  lx := by rw [hm1.lx, hm2.lx, h3]
  ly := by rw [hm1.ly, hm2.ly, h4]
  lz := by rw [hm1.lz, hm2.lz, h5]
  var := by rw [hm1.var, hm2.var, h6]
  time := h7
  istep := by rw [hm1.istep, hm2.istep, h8]
  wdsz := by rw [hm1.wdsz, hm2.wdsz, h9]
  elmap := by rw [hm1.elmap, hm2.elmap, h10]
  len := by rw [hm1.len, hm2.len, h2]
  data i hi f := by
    rw [hm1.nel] at hi
    obtain ⟨a1, a2, a3, a4⟩ := hc1 i hi f
    obtain ⟨b1, b2, b3, b4⟩ := hc2 i (by rw [h2]; exact hi) f
    rw [h6] at b3 b4
    refine ⟨⟨b1.1.trans (h3.trans hm1.lx.symm), b1.2.1.trans (h4.trans hm1.ly.symm), b1.2.2.trans (h5.trans hm1.lz.symm)⟩,
      ⟨a1.1.trans hm1.lx.symm, a1.2.1.trans hm1.ly.symm, a1.2.2.trans hm1.lz.symm⟩, fun d z hz y hy x hx => ?_⟩
    rw [hm1.lz] at hz
    rw [hm1.ly] at hy
    rw [hm1.lx] at hx
    by_cases hd : d < count M.var f
    · rw [b3 d hd z (by omega) y (by omega) x (by omega), a3 d hd z hz y hy x hx, hv i hi f d hd z hz y hy x hx]
    · rw [a4 d (by omega), b4 d (by omega)]

theorem word4 {M : HexaData F} (h4 : M.wdsz = 4) : wordSize F M.wdsz = M.wdsz := by rw [h4]; rfl

theorem roundtrip4 (native native' : Endian) (M : HexaData F) (hM : Storable M) (h4 : M.wdsz = 4) :
    ∃ content, writenek native M = (content, none) ∧ ∃ M' : HexaData G, readnek native' [] content = .ok M' ∧
      SameMeta (M.endian.getD native) M M' ∧ M'.time = printed 13 M.time ∧
      Carried (fun x => FloatTy.ofF32 (FloatTy.toF32 x)) M M' :=
  roundtrip _ native native' M hM (word4 h4) (by
    rw [h4]
    intro e a d b h z hz y hy x hx
    exact bufVal_holds4 e a d b h z y x hz hy hx)

/-- **C02**, first part. With word size 4 each value is rounded to single precision and widened again. -/
theorem C02_rounded (native native' : Endian) (M : HexaData F) (hM : Storable M) (h4 : M.wdsz = 4) :
    ∃ content, writenek native M = (content, none) ∧ ∃ M' : HexaData G, readnek native' [] content = .ok M' ∧
      SameMeta (M.endian.getD native) M M' ∧ Carried (fun x => FloatTy.ofF32 (FloatTy.toF32 x)) M M' := by
  obtain ⟨c, h1, M', h2, h3, -, h4⟩ := roundtrip4 (G := G) native native' M hM h4
  exact ⟨c, h1, M', h2, h3, h4⟩

/-- One write and read of a field. -/
def Cycle (native : Endian) (M M' : HexaData F) : Prop :=
  ∃ content, writenek native M = (content, none) ∧ readnek native [] content = .ok M'

/-- **C02**, second part. After the first write and read, any number of further ones changes nothing, and they
never fail. -/
theorem C02_stable [StableFloat G] (native native' : Endian) (M : HexaData F) (hM : Storable M) (h4 : M.wdsz = 4)
    (content : Bytes) (hw : writenek native M = (content, none)) (M1 : HexaData G) (hr : readnek native' [] content = .ok M1) :
    ∀ Mn, Relation.ReflTransGen (Cycle native') M1 Mn → SameField M1 Mn ∧ Mn.endian = M1.endian ∧ ∃ Mn', Cycle native' Mn Mn' := by
  obtain ⟨c, h1, M', h2, h3, h4t, h5⟩ := roundtrip4 (G := G) native native' M hM h4
  rw [h1] at hw
  cases hw
  rw [hr] at h2
  cases h2
  have hval : ∀ i < M1.nel, ∀ f, ∀ d < count M1.var f, ∀ z < M1.lr1.z, ∀ y < M1.lr1.y, ∀ x < M1.lr1.x,
      (FloatTy.ofF32 (FloatTy.toF32 (((M1.el i).arr f).dat d z y x)) : G) = ((M1.el i).arr f).dat d z y x := by
    intro i hi f d hd z hz y hy x hx
    rw [h3.nel] at hi
    rw [h3.var] at hd
    rw [h3.lz] at hz
    rw [h3.ly] at hy
    rw [h3.lx] at hx
    rw [(h5 i hi f).2.2.1 d hd z hz y hy x hx, StableFloat.stable]
  -- what is preserved by a cycle
  have key : ∀ Mn, Relation.ReflTransGen (Cycle native') M1 Mn →
      (Mn.endian = M1.endian ∧ Storable Mn ∧ Mn.wdsz = 4 ∧ printed 13 Mn.time = Mn.time) ∧ SameField M1 Mn := by
    intro Mn hn
    induction hn with
    | refl =>
      refine ⟨⟨rfl, hM.of_read _ _ M1 h3 h4t h5, by rw [h3.wdsz, h4], by rw [h4t, printed_idem]⟩, ?_⟩
      refine ⟨rfl, rfl, rfl, rfl, rfl, rfl, rfl, rfl, rfl, rfl, rfl, fun i hi f => ?_⟩
      rw [h3.nel] at hi
      obtain ⟨a, -⟩ := h5 i hi f
      have : Shape M1.lr1 ((M1.el i).arr f) := ⟨a.1.trans h3.lx.symm, a.2.1.trans h3.ly.symm, a.2.2.trans h3.lz.symm⟩
      exact ⟨this, this, fun _ _ _ _ _ _ _ => rfl⟩
    | @tail Ma Mb _ hcy ih =>
      obtain ⟨⟨i1, i2, i3, i4⟩, i5⟩ := ih
      obtain ⟨ca, j1, Mc, j2, j3, j4, j5⟩ := roundtrip4 (G := G) native' native' Ma i2 i3
      obtain ⟨cb, k1, k2⟩ := hcy
      rw [j1] at k1
      cases k1
      rw [j2] at k2
      cases k2
      refine ⟨⟨?_, i2.of_read _ _ Mb j3 j4 j5, by rw [j3.wdsz, i3], by rw [j4, printed_idem]⟩, ?_⟩
      · rw [j3.endian, i1, h3.endian]; rfl
      · refine ⟨by rw [j3.ndim, i5.ndim], by rw [j3.nel, i5.nel], by rw [j3.lx, i5.lx], by rw [j3.ly, i5.ly],
          by rw [j3.lz, i5.lz], by rw [j3.var, i5.var], by rw [j4, i4, i5.time], by rw [j3.istep, i5.istep],
          by rw [j3.wdsz, i5.wdsz], by rw [j3.elmap, i5.elmap], ?_, fun i hi f => ?_⟩
        · rw [j3.len, i5.nel, h3.len, h3.nel]
        · have hi' : i < Ma.nel := by rw [i5.nel]; exact hi
          obtain ⟨a, -, b, c⟩ := j5 i hi' f
          obtain ⟨-, d1, d2⟩ := i5.data i hi f
          refine ⟨⟨a.1.trans i5.lx, a.2.1.trans i5.ly, a.2.2.trans i5.lz⟩, d1, fun d z hz y hy x hx => ?_⟩
          by_cases hd : d < count M1.var f
          · rw [b d (by rw [i5.var]; exact hd) z (by rw [i5.lz]; exact hz) y (by rw [i5.ly]; exact hy) x (by rw [i5.lx]; exact hx),
              d2 d z hz y hy x hx]
            exact hval i hi f d hd z hz y hy x hx
          · rw [c d (by rw [i5.var]; omega), (h5 i (by rw [← h3.nel]; exact hi) f).2.2.2 d (by rw [← h3.var]; omega)]
  intro Mn hn
  obtain ⟨⟨i1, i2, i3, -⟩, i5⟩ := key Mn hn
  refine ⟨i5, i1, ?_⟩
  obtain ⟨ca, j1, Mc, j2, -⟩ := roundtrip4 (G := G) native' native' Mn i2 i3
  exact ⟨Mc, ca, j1, j2⟩

/-! ### Byte order -/

theorem Spec.Storable.setEndian {M : HexaData F} (hM : Storable M) (o : Option Endian) : Storable { M with endian := o } :=
  ⟨⟨hM.wdsz, hM.len, hM.shape, hM.map, hM.small⟩, hM.dim, hM.pos, hM.vel, hM.pres, hM.temp, hM.something, hM.mapLen, hM.mapAll,
    hM.points, hM.fits⟩

/-- Storing numbers of type `F` in words of `wdsz` bytes loses at most precision: the file holds as many bytes as
its header says. -/
def Spec.WordOK (F : Type) [FloatTy F] (wdsz : Nat) : Prop := wdsz = 4 ∨ FloatTy.sz F = wdsz

theorem Spec.WordOK.size {wdsz : Nat} (h : WordOK F wdsz) : wordSize F wdsz = wdsz := by
  unfold wordSize
  rcases h with h | h
  · rw [if_pos h, h]
  · split
    · omega
    · exact h

/-- What a reader makes of the value `x` stored with word size `wdsz`. -/
def Spec.storedAs (G : Type) [FloatTy G] (wdsz : Nat) (x : F) : G :=
  if wdsz = 4 then FloatTy.ofF32 (FloatTy.toF32 x) else FloatTy.ofF64 (Flt.ofBits (FloatTy.bits x % 256 ^ 8))

theorem bufVal_storedAs (wdsz : Nat) (h48 : wdsz = 4 ∨ wdsz = 8) (hw : WordOK F wdsz) (e : Endian) (a : Arr F) (d : Nat) (b : Bytes)
    (h : Holds e wdsz a d b) (z : Nat) (hz : z < a.lz) (y : Nat) (hy : y < a.ly) (x : Nat) (hx : x < a.lx) :
    (bufVal e wdsz b ((z * a.ly + y) * a.lx + x) : G) = storedAs G wdsz (a.dat d z y x) := by
  rcases h48 with rfl | rfl
  · exact bufVal_holds4 e a d b h z y x hz hy hx
  · have h1 := h.2 z hz y hy x hx
    rw [hw.size] at h1
    rw [bufVal, if_neg (by decide), storedAs, if_neg (by decide), h1, decW_encW]
    rfl

/-- **C03**. The byte order of the file does not influence the data that are read, and is reported; a field without
a byte order is written in that of the machine. -/
theorem C03_endian (native native' : Endian) (M : HexaData F) (hM : Storable M) (hw : WordOK F M.wdsz) (o1 o2 : Option Endian) :
    ∃ c1 c2, writenek native { M with endian := o1 } = (c1, none) ∧ writenek native { M with endian := o2 } = (c2, none) ∧
      ∃ M1 M2 : HexaData G, readnek native' [] c1 = .ok M1 ∧ readnek native' [] c2 = .ok M2 ∧
        M1.endian = some (o1.getD native) ∧ M2.endian = some (o2.getD native) ∧ SameField M1 M2 := by
  obtain ⟨c1, a1, M1, a2, a3, a4, a5⟩ := roundtrip (storedAs G M.wdsz) native native' { M with endian := o1 } (hM.setEndian o1) hw.size
    (bufVal_storedAs M.wdsz hM.wdsz hw)
  obtain ⟨c2, b1, M2, b2, b3, b4, b5⟩ := roundtrip (storedAs G M.wdsz) native native' { M with endian := o2 } (hM.setEndian o2) hw.size
    (bufVal_storedAs M.wdsz hM.wdsz hw)
  exact ⟨c1, c2, a1, b1, M1, M2, a2, b2, a3.endian, b3.endian,
    Carried.sameField a3 b3 a5 b5 rfl rfl rfl rfl rfl rfl (by rw [a4, b4]) rfl rfl rfl (fun _ _ _ _ _ _ _ _ _ _ _ => rfl)⟩

/-- **C03**, last part. An unknown byte order gives exactly the file of the native one. -/
theorem C03_unknown (native : Endian) (M : HexaData F) :
    writenek native { M with endian := none } = writenek native { M with endian := some native } := by
  unfold writenek
  simp [HexaData.comp, HexaData.el, chunksEM]

/-! ### Data type and word size -/

/-- **C04**, counterexample in general form. A single-precision field that claims word size 8 is written without
complaint, but the file is too short for any reader. -/
theorem C04_unreadable (native native' : Endian) (M : HexaData F32) (hM : Storable M) (h8 : M.wdsz = 8) (hel : 0 < M.nel)
    (hpts : 2 < M.lr1.x * M.lr1.y * M.lr1.z) :
    ∃ content, writenek native M = (content, none) ∧ ∃ err, (readnek native' [] content : Py (HexaData G)) = .error err := by
  obtain ⟨hb, mb, bs, ps, hfile, hlen, hread, rfl, hbl, hbsz, -, hpl⟩ := hM.file native
  refine ⟨_, hfile, ?_⟩
  cases hr : (readnek native' [] (hb ++ (encW (fileEndian native M.endian) 4 (Flt.ofRat (eb := 8) (mb := 23) false (654321 / 100000)).bits ++
      ((M.elmap.flatMap fun i => encW (fileEndian native M.endian) 4 (i32Bits i)) ++ (bs.flatten ++ ps.flatten)))) : Py (HexaData G)) with
  | error err => exact ⟨err, rfl⟩
  | ok M1 =>
    exfalso
    obtain ⟨hp, hds⟩ := hM.parsed native hb _ hlen hread (bs.flatten ++ ps.flatten) rfl
    rw [readnek_parsed native' [] _ _ _ _ hp, hds] at hr
    cases hrun : runActs (fileEndian native M.endian) (headerR M) (acts (headerR M) M.elmap [])
        ⟨bs.flatten ++ ps.flatten, initData G native' (headerR M) (fileEndian native M.endian) M.elmap⟩ with
    | error err => rw [hrun] at hr; cases hr
    | ok s' =>
      obtain ⟨-, hen⟩ := runActs_conv _ _ _ _ _ hrun
      dsimp only at hen
      have hacts : acts (headerR M) M.elmap [] = (blocks M.elmap M.var).map rdAct := by
        rw [acts_noskip, headerR_var, fileOrder, if_neg hM.no_zero]
      have hK : 0 < (blocks M.elmap M.var).length := by
        have := hM.something
        rw [blocks_length, hM.mapLen]
        exact Nat.mul_pos hel (by omega)
      have hlast : (acts (headerR M) M.elmap [])[(blocks M.elmap M.var).length - 1]? =
          some (rdAct ((blocks M.elmap M.var)[(blocks M.elmap M.var).length - 1]'(by omega))) := by
        rw [hacts, List.getElem?_map, List.getElem?_eq_getElem (by omega)]; rfl
      have h4 : wordSize F32 M.wdsz = 4 := by rw [h8]; rfl
      rw [h4] at hbsz
      rcases enough_get _ _ _ hen _ _ _ _ hlast with h2 | h2
      · rw [Nat.sub_add_cancel hK, List.length_append, flatten_length_const _ _ hbsz, hbl, hpl, headerR_blk, h8] at h2
        clear hlast
        generalize (blocks M.elmap M.var).length = n at h2 hK
        generalize M.lr1.x * M.lr1.y * M.lr1.z = p at h2 hpts
        have h3 : n * (p * 8) = n * (p * 4) + 4 * (n * p) := by ring
        have h5 : n * 3 ≤ n * p := Nat.mul_le_mul_left _ hpts
        split at h2 <;> omega
      · rw [headerR_blk, h8] at h2
        omega

/-- **C04** is false in the code: a field read with `dtype=float32` from a file with word size 8 cannot be written
and read back. -/
theorem C04_false (native native' : Endian) (M : HexaData F64) (hM : Storable M) (h8 : M.wdsz = 8) (hel : 0 < M.nel)
    (hpts : 2 < M.lr1.x * M.lr1.y * M.lr1.z) :
    ∃ content, writenek native M = (content, none) ∧ ∃ M1 : HexaData F32, readnek native' [] content = .ok M1 ∧
      ∃ content', writenek native' M1 = (content', none) ∧ ∃ err, (readnek native' [] content' : Py (HexaData G)) = .error err := by
  have hw : WordOK F64 M.wdsz := .inr h8.symm
  obtain ⟨c1, a1, M1, a2, a3, a4, a5⟩ := roundtrip (storedAs F32 M.wdsz) native native' M hM hw.size
    (bufVal_storedAs M.wdsz hM.wdsz hw)
  obtain ⟨c2, b1, b2⟩ := C04_unreadable (G := G) native' native' M1 (hM.of_read _ _ M1 a3 a4 a5) (by rw [a3.wdsz, h8])
    (by rw [a3.nel]; exact hel) (by rw [a3.lx, a3.ly, a3.lz]; exact hpts)
  exact ⟨c1, a1, M1, a2, c2, b1, b2⟩

/-- **C04**, the part that holds. If the word size is 4 or the item size, a field that was read can be written and
read again (with any dtype). -/
theorem C04_partial {H : Type} [FloatTy H] (native native' : Endian) (M : HexaData F) (hM : Storable M) (hw : WordOK F M.wdsz) (hw' : WordOK G M.wdsz) :
    ∃ content, writenek native M = (content, none) ∧ ∃ M1 : HexaData G, readnek native' [] content = .ok M1 ∧
      ∃ content', writenek native' M1 = (content', none) ∧ ∃ M2 : HexaData H, readnek native' [] content' = .ok M2 ∧
        SameMeta (M.endian.getD native) M1 M2 ∧ Carried (storedAs H M.wdsz) M1 M2 := by
  obtain ⟨c1, a1, M1, a2, a3, a4, a5⟩ := roundtrip (storedAs G M.wdsz) native native' M hM hw.size
    (bufVal_storedAs M.wdsz hM.wdsz hw)
  have hw1 : WordOK G M1.wdsz := by rw [a3.wdsz]; exact hw'
  have hs := hM.of_read _ _ M1 a3 a4 a5
  obtain ⟨c2, b1, M2, b2, b3, b4, b5⟩ := roundtrip (storedAs H M1.wdsz) native' native' M1 hs hw1.size
    (bufVal_storedAs M1.wdsz hs.wdsz hw1)
  rw [a3.wdsz] at b5
  rw [a3.endian] at b3
  exact ⟨c1, a1, M1, a2, c2, b1, M2, b2, b3, b5⟩

/-! ### Truncated files -/

/-- Size of the file up to the end of the data section. -/
def Spec.dataSize (M : HexaData F) : Nat :=
  132 + 4 + 4 * M.nel + M.nel * (M.var.pos + M.var.vel + M.var.pres + M.var.temp + M.var.scal) *
    (M.lr1.x * M.lr1.y * M.lr1.z * M.wdsz)

omit [FloatTy F] in
theorem dataEnd_eq (M : HexaData F) (h : M.elmap.length = M.nel) : dataEnd M = dataSize M := by
  rw [dataEnd, dataSize, blocks_length, h]

/-- **C12**. A file cut before the end of the data section is refused. A file that lost only (a part of) the
section of minima and maxima is read like the complete one. -/
theorem C12_truncated (native native' : Endian) (M : HexaData F) (hM : Storable M) (hw : WordOK F M.wdsz) :
    ∃ content, writenek native M = (content, none) ∧ dataSize M ≤ content.length ∧
      (∀ L < dataSize M, ∃ err, (readnek native' [] (content.take L) : Py (HexaData G)) = .error err) ∧
      ∃ M' : HexaData G, readnek native' [] content = .ok M' ∧
        ∀ L, dataSize M ≤ L → readnek native' [] (content.take L) = .ok M' := by
  obtain ⟨head, tail, h1, h2, -, h4, M', h5, -⟩ := hM.read (G := G) native native' hw.size
  rw [dataEnd_eq M hM.mapLen] at h2
  refine ⟨head ++ tail, h1, by rw [List.length_append]; omega, fun L hL => ?_, M', h5 tail, fun L hL => ?_⟩
  · rw [List.take_append_of_le_length (by omega)]
    exact h4 L (by omega)
  · rw [List.take_append, List.take_of_length_le (by omega)]
    exact h5 _

/-! ### Layout -/

theorem Flt.le_iff_val {eb mb : Nat} (a b : Flt eb mb) : a.le b = true → a.val ≤ b.val := by
  unfold Flt.le Flt.val
  intro h
  have h := of_decide_eq_true h
  dsimp only at h
  have ha := Flt.magVal_nonneg (eb := eb) (mb := mb) a.mag
  have hb := Flt.magVal_nonneg (eb := eb) (mb := mb) b.mag
  split at h <;> split at h
  · have := Flt.magVal_mono (eb := eb) (mb := mb) (show b.mag ≤ a.mag by omega)
    rw [if_pos ‹_›, if_pos ‹_›]; linarith
  · rw [if_pos ‹_›, if_neg ‹_›]; linarith
  · have h1 : a.mag = 0 := by omega
    have h2 : b.mag = 0 := by omega
    rw [if_neg ‹_›, if_pos ‹_›, h1, h2, Flt.magVal_zero]; simp
  · have := Flt.magVal_mono (eb := eb) (mb := mb) (show a.mag ≤ b.mag by omega)
    rw [if_neg ‹_›, if_neg ‹_›]; linarith

/-- Item types with an exact value, for which `np.minimum` and `np.maximum` choose the right one. -/
class RealFloat (F : Type) [FloatTy F] where
  /-- the exact value of a finite item -/
  val : F → ℚ
  /-- neither infinite nor NaN -/
  Finite : F → Prop
  min_mem : ∀ a b : F, FloatTy.min2 a b = a ∨ FloatTy.min2 a b = b
  max_mem : ∀ a b : F, FloatTy.max2 a b = a ∨ FloatTy.max2 a b = b
  min_le : ∀ a b : F, Finite a → Finite b → val (FloatTy.min2 a b) ≤ val a ∧ val (FloatTy.min2 a b) ≤ val b
  le_max : ∀ a b : F, Finite a → Finite b → val a ≤ val (FloatTy.max2 a b) ∧ val b ≤ val (FloatTy.max2 a b)

theorem Flt.le_total {eb mb : Nat} (a b : Flt eb mb) (h : ¬ a.le b = true) : b.le a = true := by
  unfold Flt.le at h ⊢
  rw [decide_eq_true_eq] at h ⊢
  omega

theorem Flt.min2_mem {eb mb : Nat} (a b : Flt eb mb) : Flt.min2 a b = a ∨ Flt.min2 a b = b := by
  unfold Flt.min2; split_ifs <;> simp

theorem Flt.max2_mem {eb mb : Nat} (a b : Flt eb mb) : Flt.max2 a b = a ∨ Flt.max2 a b = b := by
  unfold Flt.max2; split_ifs <;> simp

theorem Flt.Finite.not_nan {eb mb : Nat} {a : Flt eb mb} (h : a.Finite) : ¬ a.IsNaN := by
  simp only [Flt.IsNaN, Flt.Finite, not_lt] at h ⊢; exact h.le

theorem Flt.min2_le {eb mb : Nat} (a b : Flt eb mb) (ha : a.Finite) (hb : b.Finite) :
    (Flt.min2 a b).val ≤ a.val ∧ (Flt.min2 a b).val ≤ b.val := by
  unfold Flt.min2
  rw [if_neg ha.not_nan, if_neg hb.not_nan]
  split
  · exact ⟨le_rfl, Flt.le_iff_val _ _ ‹_›⟩
  · exact ⟨Flt.le_iff_val _ _ (Flt.le_total _ _ ‹_›), le_rfl⟩

theorem Flt.le_max2 {eb mb : Nat} (a b : Flt eb mb) (ha : a.Finite) (hb : b.Finite) :
    a.val ≤ (Flt.max2 a b).val ∧ b.val ≤ (Flt.max2 a b).val := by
  unfold Flt.max2
  rw [if_neg ha.not_nan, if_neg hb.not_nan]
  split
  · exact ⟨le_rfl, Flt.le_iff_val _ _ ‹_›⟩
  · exact ⟨Flt.le_iff_val _ _ (Flt.le_total _ _ ‹_›), le_rfl⟩

instance : RealFloat F32 := ⟨Flt.val, Flt.Finite, Flt.min2_mem, Flt.max2_mem, Flt.min2_le, Flt.le_max2⟩
instance : RealFloat F64 := ⟨Flt.val, Flt.Finite, Flt.min2_mem, Flt.max2_mem, Flt.min2_le, Flt.le_max2⟩

/-- `b` holds the smallest and the largest value of component `d`, in single precision. -/
def Spec.HoldsMinMax [RealFloat F] (e : Endian) (a : Arr F) (d : Nat) (b : Bytes) : Prop :=
  ∃ lo hi : F, b = encW e 4 (FloatTy.toF32 lo).bits ++ encW e 4 (FloatTy.toF32 hi).bits ∧
    (∃ z < a.lz, ∃ y < a.ly, ∃ x < a.lx, lo = a.dat d z y x) ∧ (∃ z < a.lz, ∃ y < a.ly, ∃ x < a.lx, hi = a.dat d z y x) ∧
    ((∀ z < a.lz, ∀ y < a.ly, ∀ x < a.lx, RealFloat.Finite (a.dat d z y x)) →
      ∀ z < a.lz, ∀ y < a.ly, ∀ x < a.lx, RealFloat.val lo ≤ RealFloat.val (a.dat d z y x) ∧ RealFloat.val (a.dat d z y x) ≤ RealFloat.val hi)

theorem foldl_min2 [RealFloat F] (l : List F) (x : F) : l.foldl FloatTy.min2 x ∈ x :: l ∧
    ((∀ y ∈ x :: l, RealFloat.Finite y) → ∀ y ∈ x :: l, RealFloat.val (l.foldl FloatTy.min2 x) ≤ RealFloat.val y) := by
  induction l generalizing x with
  | nil => simp
  | cons a l ih =>
    obtain ⟨h1, h2⟩ := ih (FloatTy.min2 x a)
    have hm := RealFloat.min_mem x a
    rw [List.foldl_cons]
    refine ⟨?_, fun hf => ?_⟩
    · rcases List.mem_cons.mp h1 with h | h
      · rw [h]; rcases hm with h | h <;> rw [h] <;> simp
      · exact List.mem_cons_of_mem _ (List.mem_cons_of_mem _ h)
    · have hle := RealFloat.min_le x a (hf x (by simp)) (hf a (by simp))
      have h3 := h2 (fun y hy => by
        rcases List.mem_cons.mp hy with rfl | h
        · rcases hm with h | h <;> rw [h]
          · exact hf x (by simp)
          · exact hf a (by simp)
        · exact hf y (by simp [h]))
      have h4 := h3 _ List.mem_cons_self
      intro y hy
      rcases List.mem_cons.mp hy with rfl | hy
      · exact h4.trans hle.1
      · rcases List.mem_cons.mp hy with rfl | hy
        · exact h4.trans hle.2
        · exact h3 y (List.mem_cons_of_mem _ hy)

theorem foldl_max2 [RealFloat F] (l : List F) (x : F) : l.foldl FloatTy.max2 x ∈ x :: l ∧
    ((∀ y ∈ x :: l, RealFloat.Finite y) → ∀ y ∈ x :: l, RealFloat.val y ≤ RealFloat.val (l.foldl FloatTy.max2 x)) := by
  induction l generalizing x with
  | nil => simp
  | cons a l ih =>
    obtain ⟨h1, h2⟩ := ih (FloatTy.max2 x a)
    have hm := RealFloat.max_mem x a
    rw [List.foldl_cons]
    refine ⟨?_, fun hf => ?_⟩
    · rcases List.mem_cons.mp h1 with h | h
      · rw [h]; rcases hm with h | h <;> rw [h] <;> simp
      · exact List.mem_cons_of_mem _ (List.mem_cons_of_mem _ h)
    · have hle := RealFloat.le_max x a (hf x (by simp)) (hf a (by simp))
      have h3 := h2 (fun y hy => by
        rcases List.mem_cons.mp hy with rfl | h
        · rcases hm with h | h <;> rw [h]
          · exact hf x (by simp)
          · exact hf a (by simp)
        · exact hf y (by simp [h]))
      have h4 := h3 _ List.mem_cons_self
      intro y hy
      rcases List.mem_cons.mp hy with rfl | hy
      · exact hle.1.trans h4
      · rcases List.mem_cons.mp hy with rfl | hy
        · exact hle.2.trans h4
        · exact h3 y (List.mem_cons_of_mem _ hy)

omit [FloatTy F] in
/-- The items of a component are its values at the grid points. -/
theorem mem_items (a : Arr F) (d : Nat) (l : List F) (h : a.items d = .ok l) (v : F) :
    v ∈ l ↔ ∃ z < a.lz, ∃ y < a.ly, ∃ x < a.lx, v = a.dat d z y x := by
  unfold Arr.items at h
  split at h
  · rw [← Except.ok.inj h]
    simp only [List.mem_flatMap, List.mem_map, List.mem_range, eq_comm]
  · cases h

theorem pairW_ok [RealFloat F] (native : Endian) (M : HexaData F) (f : Fld) (n : Int) (d : Nat) (b : Bytes)
    (h : pairW native M (f, n, d) = .ok b) :
    ∃ i, pyIndex M.elem.length (n - 1) = .ok i ∧ d < ((M.el i).arr f).n ∧
      HoldsMinMax (M.endian.getD native) ((M.el i).arr f) d b := by
  unfold pairW HexaData.comp at h
  dsimp only at h
  cases hi : pyIndex M.elem.length (n - 1) with
  | error e => rw [hi] at h; cases h
  | ok i =>
    rw [hi] at h
    simp only [bind, Except.bind] at h
    cases hit : ((M.el i).arr f).items d with
    | error e => rw [hit] at h; cases h
    | ok l =>
      rw [hit] at h
      dsimp only at h
      have hmem := mem_items _ d l hit
      refine ⟨i, rfl, (items_spec _ d l hit).1, ?_⟩
      cases l with
      | nil => cases h
      | cons v l =>
        obtain ⟨h1, h2⟩ := foldl_min2 l v
        obtain ⟨h3, h4⟩ := foldl_max2 l v
        refine ⟨l.foldl FloatTy.min2 v, l.foldl FloatTy.max2 v, ?_, (hmem _).mp h1, (hmem _).mp h3, fun hf z hz y hy x hx => ?_⟩
        · have h := Except.ok.inj h
          rw [item_file, item_file] at h
          exact h.symm
        · have hall : ∀ w ∈ v :: l, RealFloat.Finite w := by
            intro w hw
            obtain ⟨z, hz, y, hy, x, hx, rfl⟩ := (hmem w).mp hw
            exact hf z hz y hy x hx
          have hin := (hmem (((M.el i).arr f).dat d z y x)).mpr ⟨z, hz, y, hy, x, hx, rfl⟩
          exact ⟨h2 hall _ hin, h4 hall _ hin⟩

theorem forall₂_of_map {α : Type} (l : List α) (g : α → Py Bytes) (bs : List Bytes) (h : l.map g = bs.map .ok) :
    List.Forall₂ (fun t b => g t = .ok b) l bs := by
  induction l generalizing bs with
  | nil =>
    cases bs with
    | nil => exact .nil
    | cons b bs => cases h
  | cons a l ih =>
    cases bs with
    | nil => cases h
    | cons b bs =>
      simp only [List.map_cons, List.cons.injEq] at h
      exact .cons h.1 (ih bs h.2)

/-- **C05**. The layout of every file that is written without exception. -/
theorem C05_layout [RealFloat F] (native : Endian) (M : HexaData F) (h : (writenek native M).2 = none) :
    ∃ (hd : Header) (bs ps : List Bytes),
      headerW M = .ok hd ∧
      (writenek native M).1 = hd.asBytes ++
        (encW (M.endian.getD native) 4 (Flt.ofRat (eb := 8) (mb := 23) false (654321 / 100000)).bits ++
        ((M.elmap.flatMap fun i => encW (M.endian.getD native) 4 (i32Bits i)) ++ (bs.flatten ++ ps.flatten))) ∧
      List.Forall₂ (fun t b => ∃ i, pyIndex M.elem.length (t.2.1 - 1) = .ok i ∧
        Holds (M.endian.getD native) M.wdsz ((M.el i).arr t.1) t.2.2 b) (blocks M.elmap M.var) bs ∧
      List.Forall₂ (fun t b => ∃ i, pyIndex M.elem.length (t.2.1 - 1) = .ok i ∧
        HoldsMinMax (M.endian.getD native) ((M.el i).arr t.1) t.2.2 b) (if M.ndim = 3 then pairs M.elmap M.var else []) ps := by
  obtain ⟨hd, bs, ps, h1, h2, h3, h4⟩ := writenek_none native M h
  refine ⟨hd, bs, ps, h1, by rw [h4]; rfl, ?_, ?_⟩
  · refine (forall₂_of_map _ _ _ h2).imp fun t b ht => ?_
    obtain ⟨i, hi, -, hh⟩ := blockW_ok native M t.1 t.2.1 t.2.2 b ht
    exact ⟨i, hi, hh⟩
  · have h3' : (if M.ndim = 3 then pairs M.elmap M.var else []).map (pairW native M) = ps.map .ok := by
      split at h3
      · rw [if_pos ‹_›]; exact h3
      · rw [if_neg ‹_›]; exact h3
    refine (forall₂_of_map _ _ _ h3').imp fun t b ht => ?_
    obtain ⟨i, hi, -, hh⟩ := pairW_ok native M t.1 t.2.1 t.2.2 b ht
    exact ⟨i, hi, hh⟩

/-- **C05**, the size of the file of a consistent field. -/
theorem C05_size (native : Endian) (M : HexaData F) (hM : Storable M) :
    (writenek native M).1.length = 132 + 4 + 4 * M.nel +
      M.nel * (M.var.pos + M.var.vel + M.var.pres + M.var.temp + M.var.scal) *
        (M.lr1.x * M.lr1.y * M.lr1.z * wordSize F M.wdsz + if M.ndim = 3 then 8 else 0) := by
  obtain ⟨hb, mb, bs, ps, hfile, hlen, hread, rfl, hbl, hbsz, -, hpl⟩ := hM.file native
  rw [hfile]
  simp only [List.length_append, hlen, encW_length, flatMap_length_const 4 _ M.elmap (fun i _ => encW_length _ _ _),
    flatten_length_const _ _ hbsz, hbl, hpl, blocks_length, hM.mapLen]
  split <;> ring

/-! ### Rejected writes -/

/-- **C14** is false for `writenek`: a field with a wrong word size is refused with `ValueError`, but only after the
file was opened for writing; whatever it held before, it is empty afterwards. -/
theorem C14_writenek_false (native : Endian) (M : HexaData F) (h : M.wdsz ≠ 4 ∧ M.wdsz ≠ 8) :
    writenek native M = ([], some .valueError) := by
  rw [writenek_eq, headerW, C08_wordsize _ _ _ _ _ _ _ _ _ _ _ _ (by omega) (by omega)]

/-- Only the word size can make `writenek` raise before it writes anything. -/
theorem C14_writenek_nonempty (native : Endian) (M : HexaData F) (h : M.wdsz = 4 ∨ M.wdsz = 8) :
    132 ≤ (writenek native M).1.length := by
  obtain ⟨hd, h1, -⟩ := headerW_ok M h
  rw [writenek_eq, h1]
  dsimp only
  rw [runWrites]
  dsimp only
  rw [List.length_append, Header.asBytes, encodeT_length, ljust, List.length_append, List.length_replicate]
  omega

/-! ### Fields without variables -/

theorem splitT_blanks (n : Nat) : splitT (List.replicate n ' ') = [] := by
  have := splitGo_blanks n []
  rw [List.append_nil] at this
  rw [splitT, this]
  rfl

theorem header_words_nil (h : Header) (hv : h.vstr = []) (n : Nat) : (splitT (h.text ++ List.replicate n ' ')).length = 11 := by
  have hI : ∀ n i t, splitT (rjust n (decI i) ++ ' ' :: t) = decI i :: splitT t :=
    fun n i t => splitT_rjust n _ (isWord_decI i) t
  have hF : ∀ t, splitT (rjust 20 (fmtE 'E' 13 h.time) ++ ' ' :: t) = fmtE 'E' 13 h.time :: splitT t :=
    fun t => splitT_rjust 20 _ (isWord_fmtE 'E' (.inl rfl) 13 h.time) t
  have h0 : ∀ t, splitT ("#std ".toList ++ t) = "#std".toList :: splitT t := fun t =>
    splitT_word 0 "#std".toList ⟨by decide, by decide⟩ t
  unfold Header.text
  rw [hv]
  simp only [List.append_assoc, List.cons_append, List.nil_append]
  rw [h0, hI, hI, hI, hI, hI, hI, hF, hI, hI, hI, splitT_blanks]
  rfl

/-- **C15** is false in the code, for every field without variables: it is accepted by `writenek`, but the header has a
word less than `read_header` wants. -/
theorem C15_false (native native' : Endian) (M : HexaData F) (hwd : M.wdsz = 4 ∨ M.wdsz = 8) (hv : M.var = ⟨0, 0, 0, 0, 0⟩)
    (hfit : ∀ hd, headerW M = .ok hd → hd.text.length ≤ 132) :
    ∃ content, writenek native M = (content, none) ∧ (readnek native' [] content : Py (HexaData G)) = .error .ioError := by
  obtain ⟨hd, h1, h2⟩ := headerW_ok M hwd
  have hvs : hd.vstr = [] := by rw [h2, hv]; rfl
  have hl := hfit hd h1
  have hbl : blocks M.elmap M.var = [] := by
    apply List.eq_nil_of_length_eq_zero
    rw [blocks_length, hv]; simp
  have hpr : pairs M.elmap M.var = [] := by
    apply List.eq_nil_of_length_eq_zero
    rw [pairs_length, hv]; simp
  have hw : ∃ t, writenek native M = (hd.asBytes ++ t, none) := by
    rw [writenek_eq, h1]
    dsimp only
    rw [bodyW, hbl, hpr]
    have : (if M.ndim = 3 then ([] : List (Fld × Int × Nat)).map (pairW native M) else []) = [] := by split <;> rfl
    rw [this]
    simp only [List.map_nil, List.append_nil, runWrites]
    exact ⟨_, rfl⟩
  obtain ⟨t, ht⟩ := hw
  refine ⟨_, ht, ?_⟩
  have hr : readHeader (hd.asBytes ++ t) = .error .ioError := by
    refine C08_short _ _ ((splitT_iff _ _).mp rfl) ?_
    have e1 : (hd.asBytes ++ t).take 132 = hd.asBytes := by
      rw [← asBytes_length hd hl, List.take_left']; rfl
    have ha : IsAscii hd.vstr := by rw [hvs]; intro c hc; cases hc
    rw [e1, Header.asBytes, decodeB_ascii (isAscii_ljust _ (header_ascii hd ha)), ljust, header_words_nil hd hvs]
    decide
  rw [readnek, hr]
  rfl

/-! ### Examples -/

namespace Samples

/-- Some double-precision numbers. -/
def num (k : Nat) : F64 := Flt.ofRat (decide (k % 3 = 1)) ((k : ℚ) / 7)

/-- An array with different values everywhere. -/
def arr (s n lx ly lz : Nat) : Arr F64 :=
  ⟨n, lz, ly, lx, fun d z y x => num (s + 1 + x + lx * (y + ly * (z + lz * d)))⟩

/-- The same numbers in single precision. -/
def arr32 (s n lx ly lz : Nat) : Arr F32 :=
  ⟨n, lz, ly, lx, fun d z y x => Flt.toF32 (num (s + 1 + x + lx * (y + ly * (z + lz * d))))⟩

/-- Two elements in two dimensions, stored in reverse order, with velocity, pressure and two scalars. -/
def field2 : HexaData F64 :=
  { (HexaData.new .little 2 2 ⟨3, 2, 1, false⟩ ⟨2, 2, 1, 0, 2⟩ 0 : HexaData F64) with
    time := Flt.ofRat false (5 / 4), istep := 17, elmap := [2, 1], endian := some .big,
    elem := [0, 100].map fun s =>
      { (Elem.new 1 0 2 3 2 1 0 : Elem F64) with
        pos := arr s 3 3 2 1, vel := arr (s + 20) 3 3 2 1, pres := arr (s + 40) 1 3 2 1, scal := arr (s + 60) 2 3 2 1 } }

/-- One element in three dimensions. -/
def field3 : HexaData F64 :=
  { (HexaData.new .little 3 1 ⟨2, 2, 2, false⟩ ⟨0, 3, 0, 1, 0⟩ 0 : HexaData F64) with
    time := num 5, istep := -3,
    elem := [{ (Elem.new 0 1 0 2 2 2 0 : Elem F64) with vel := arr 20 3 2 2 2, temp := arr 0 1 2 2 2 }] }

/-- A single-precision field that says it has word size 8. -/
def field32 : HexaData F32 :=
  { (HexaData.new .little 2 1 ⟨2, 2, 1, false⟩ ⟨2, 0, 0, 0, 0⟩ 0 : HexaData F32) with
    elem := [{ (Elem.new 0 0 0 2 2 1 0 : Elem F32) with pos := arr32 0 3 2 2 1 }] }

theorem shapes {F : Type} [Zero F] (M : HexaData F) (h : ∀ i < M.nel, ∀ f ∈ [Fld.pos, .vel, .pres, .temp, .scal],
    0 < count M.var f → ((M.el i).arr f).lx = M.lr1.x ∧ ((M.el i).arr f).ly = M.lr1.y ∧ ((M.el i).arr f).lz = M.lr1.z ∧
      count M.var f ≤ ((M.el i).arr f).n) (i : Nat) (hi : i < M.nel) (f : Fld) (hc : 0 < count M.var f) :
    Shape M.lr1 ((M.el i).arr f) ∧ count M.var f ≤ ((M.el i).arr f).n := by
  obtain ⟨a, b, c, d⟩ := h i hi f (by cases f <;> decide) hc
  exact ⟨⟨a, b, c⟩, d⟩

omit [FloatTy F] in
theorem fitsB (M : HexaData F) (h : (match headerW M with | .ok hd => decide (hd.text.length ≤ 132) | .error _ => true) = true)
    (hd : Header) (hh : headerW M = .ok hd) : hd.text.length ≤ 132 := by
  rw [hh] at h; exact of_decide_eq_true h

theorem field2_ok : Storable field2 where
  wdsz := by decide +kernel
  len := by decide +kernel
  shape := shapes _ (by decide +kernel)
  map := by decide +kernel
  small := by decide +kernel
  dim := by decide +kernel
  pos := by decide +kernel
  vel := by decide +kernel
  pres := by decide +kernel
  temp := by decide +kernel
  something := by decide +kernel
  mapLen := by decide +kernel
  mapAll := by decide +kernel
  points := by decide +kernel
  fits := fitsB _ (by decide +kernel)

theorem field3_ok : Storable field3 where
  wdsz := by decide +kernel
  len := by decide +kernel
  shape := shapes _ (by decide +kernel)
  map := by decide +kernel
  small := by decide +kernel
  dim := by decide +kernel
  pos := by decide +kernel
  vel := by decide +kernel
  pres := by decide +kernel
  temp := by decide +kernel
  something := by decide +kernel
  mapLen := by decide +kernel
  mapAll := by decide +kernel
  points := by decide +kernel
  fits := fitsB _ (by decide +kernel)

theorem field32_ok : Storable field32 where
  wdsz := by decide +kernel
  len := by decide +kernel
  shape := shapes _ (by decide +kernel)
  map := by decide +kernel
  small := by decide +kernel
  dim := by decide +kernel
  pos := by decide +kernel
  vel := by decide +kernel
  pres := by decide +kernel
  temp := by decide +kernel
  something := by decide +kernel
  mapLen := by decide +kernel
  mapAll := by decide +kernel
  points := by decide +kernel
  fits := fitsB _ (by decide +kernel)

/-- `field2` with word size 4. -/
def field4 : HexaData F64 := { field2 with wdsz := 4 }

theorem field4_ok : Storable field4 :=
  ⟨⟨by decide +kernel, field2_ok.len, field2_ok.shape, field2_ok.map, field2_ok.small⟩, field2_ok.dim, field2_ok.pos, field2_ok.vel,
    field2_ok.pres, field2_ok.temp, field2_ok.something, field2_ok.mapLen, field2_ok.mapAll, field2_ok.points,
    fitsB _ (by decide +kernel)⟩

end Samples

-- C01, C03, C04_partial, C05, C12
example : Storable Samples.field2 ∧ Samples.field2.wdsz = 8 ∧ WordOK F64 Samples.field2.wdsz ∧ HasDigits 13 Samples.field2.time ∧
    (writenek .little Samples.field2).2 = none :=
  ⟨Samples.field2_ok, rfl, .inr rfl, ⟨by decide +kernel, 125, -2, by norm_num, by decide +kernel⟩, by decide +kernel⟩
example : Storable Samples.field3 ∧ WordOK F64 Samples.field3.wdsz ∧ (writenek .little Samples.field3).2 = none :=
  ⟨Samples.field3_ok, .inr rfl, by decide +kernel⟩
-- C02: the values really change
example : Storable Samples.field4 ∧ Samples.field4.wdsz = 4 ∧
    Flt.toF64 (Flt.toF32 ((Samples.field4.el 0).pos.dat 0 0 0 0)) ≠ (Samples.field4.el 0).pos.dat 0 0 0 0 :=
  ⟨Samples.field4_ok, rfl, by decide +kernel⟩
-- C04_unreadable, C04_false
example : Storable Samples.field32 ∧ Samples.field32.wdsz = 8 ∧ 0 < Samples.field32.nel ∧
    2 < Samples.field32.lr1.x * Samples.field32.lr1.y * Samples.field32.lr1.z := ⟨Samples.field32_ok, rfl, by decide, by decide⟩
example : 0 < Samples.field2.nel ∧ 2 < Samples.field2.lr1.x * Samples.field2.lr1.y * Samples.field2.lr1.z := by decide
-- C14
example : writenek .little { Samples.field2 with wdsz := 2 } = ([], some .valueError) := C14_writenek_false _ _ (by decide)
-- C15
example : ∃ content, writenek .little { Samples.field2 with var := ⟨0, 0, 0, 0, 0⟩ } = (content, none) ∧
    (readnek .little [] content : Py (HexaData F64)) = .error .ioError :=
  C15_false _ _ _ (.inr rfl) rfl (Samples.fitsB _ (by decide +kernel))

end Pymech
