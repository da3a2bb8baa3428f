import Verif.Lemmas.Reader
import Verif.Spec.Field

/-!
# `readnek` as a list of actions
-/

namespace Pymech

open Spec

variable {F : Type} [FloatTy F]

/-- The name is in `skip_vars`. -/
def skB (skipVars : List Text) (t : Text) : Bool := decide (t ∈ skipVars)

/-- The variables announced by the header. -/
def Header.var (h : Header) : Var := ⟨h.nbVars.pos, h.nbVars.vel, h.nbVars.pres, h.nbVars.temp, h.nbVars.scal.toNat⟩

/-- All actions of `readnek`. -/
def acts (h : Header) (elmap : List Int) (sv : List Text) : List Act :=
  let js := elemIdxs h elmap
  actsGroup h js .pos h.var.pos (fun d => skB sv (geomNames d)) ((List.range h.var.pos).all fun d => skB sv (geomNames d)) ++
  (actsGroup h js .vel h.var.vel (fun d => skB sv (velNames1 d) || skB sv (velNames2 d))
    (((List.range h.var.vel).all fun d => skB sv (velNames1 d)) || (List.range h.var.vel).all fun d => skB sv (velNames2 d)) ++
  (actsGroup h js .pres h.var.pres (fun _ => false) (skB sv ['p'] || skB sv "pressure".toList) ++
  (actsGroup h js .temp h.var.temp (fun _ => false) (skB sv ['t'] || skB sv "temperature".toList) ++
  actsScal h js h.var.scal (fun d => skB sv (scalName d)))))

/-- What is known about a file before its data section is read. -/
structure Parsed (b : Bytes) (h : Header) (e : Endian) (elmap : List Int) : Prop where
  header : readHeader b = .ok h
  tag : tagEndian ((b.drop 132).take 4) = .ok e
  mapLen : (elmapBytes h (b.drop 136)).length = 4 * h.nbElemsFile.toNat
  map : elmap = (words 4 h.nbElemsFile.toNat (elmapBytes h (b.drop 136))).map fun w => i32Val (decW e w)
  size : ¬ (h.nbElems < 0 ∨ h.ox < 0 ∨ h.oy < 0 ∨ h.oz < 0 ∨ h.nbVars.scal < 0)

/-- The data structure before the data section is read. -/
def initData (F : Type) [FloatTy F] (native : Endian) (h : Header) (e : Endian) (elmap : List Int) : HexaData F :=
  { (HexaData.new native h.nbDims h.nbElems.toNat ⟨h.ox.toNat, h.oy.toNat, h.oz.toNat, false⟩ h.var 0 : HexaData F) with
    time := h.time, istep := h.istep, wdsz := h.wdsz.toNat, elmap := elmap, endian := some e }

/-- The data section. -/
def dataSection (h : Header) (b : Bytes) : Bytes := (b.drop 136).drop (4 * h.nbElemsFile.toNat)

theorem readnek_parsed (native : Endian) (sv : List Text) (b : Bytes) (h : Header) (e : Endian) (elmap : List Int)
    (hp : Parsed b h e elmap) :
    (readnek native sv b : Py (HexaData F)) =
      (runActs e h (acts h elmap sv) ⟨dataSection h b, initData F native h e elmap⟩).map (·.data) := by
  unfold readnek
  rw [hp.header]
  simp only [bind, Except.bind]
  rw [hp.tag]
  dsimp only
  rw [if_neg (not_not.mpr hp.mapLen), if_neg hp.size]
  rw [← hp.map]
  have key : ∀ s : RS F, readBody e h elmap sv h.var s = runActs e h (acts h elmap sv) s := by
    intro s
    unfold readBody acts
    simp only [runActs_append, readGroup_eq, readScalars_eq]
    rfl
  rw [← key]
  rfl

/-- `readnek` only succeeds on files with a well-formed beginning. -/
theorem readnek_inv (native : Endian) (sv : List Text) (b : Bytes) (M : HexaData F) (hr : readnek native sv b = .ok M) :
    ∃ h e elmap, Parsed b h e elmap := by
  unfold readnek at hr
  cases hh : readHeader b with
  | error err => rw [hh] at hr; cases hr
  | ok h =>
    rw [hh] at hr
    simp only [bind, Except.bind] at hr
    cases ht : tagEndian ((b.drop 132).take 4) with
    | error err => rw [ht] at hr; cases hr
    | ok e =>
      rw [ht] at hr
      dsimp only at hr
      split at hr
      · cases hr
      · next hl =>
        split at hr
        · cases hr
        · next hs => exact ⟨h, e, _, hh, ht, not_not.mp hl, rfl, hs⟩

/-! ### Without skipping the actions are the blocks of the file -/

/-- The action that reads a block. -/
def rdAct (t : Fld × Int × Nat) : Act := .rd t.1 (t.2.1 - 1) t.2.2

theorem elemIdxs_eq (h : Header) (elmap : List Int) : elemIdxs h elmap = (fileOrder elmap h.nbElemsFile.toNat).map (· - 1) := by
  unfold elemIdxs fileOrder
  split
  · rw [List.map_map]
    apply List.map_congr_left
    intro i _
    simp
  · rfl

theorem actsGroup_noskip (h : Header) (order : List Int) (f : Fld) (n : Nat) :
    actsGroup h (order.map (· - 1)) f n (fun _ => false) false =
      (order.flatMap fun m => (List.range n).map fun d => (f, m, d)).map rdAct := by
  unfold actsGroup actsEM
  split
  · next hn => subst hn; simp
  · simp [List.flatMap_map, List.map_flatMap, rdAct, List.map_map, Function.comp_def]

theorem actsScal_noskip (h : Header) (order : List Int) (n : Nat) :
    actsScal h (order.map (· - 1)) n (fun _ => false) =
      ((List.range n).flatMap fun d => order.map fun m => (Fld.scal, m, d)).map rdAct := by
  unfold actsScal
  split
  · next hn => subst hn; simp
  · next hn =>
    have : (List.range n).all (fun _ => false) = false := by
      rw [List.all_eq_false]; exact ⟨0, by simp; omega, by simp⟩
    rw [this]
    simp [List.map_flatMap, rdAct, List.map_map, Function.comp_def]

theorem all_false (n : Nat) (hn : n ≠ 0) : (List.range n).all (fun _ => false) = false := by
  rw [List.all_eq_false]; exact ⟨0, by simp; omega, by simp⟩

theorem actsGroup_all (h : Header) (js : List Int) (f : Fld) (n : Nat) :
    actsGroup h js f n (fun _ => false) ((List.range n).all fun _ => false) = actsGroup h js f n (fun _ => false) false := by
  by_cases hn : n = 0
  · simp [actsGroup, hn]
  · rw [all_false n hn]

theorem acts_noskip (h : Header) (elmap : List Int) :
    acts h elmap [] = (blocks (fileOrder elmap h.nbElemsFile.toNat) h.var).map rdAct := by
  have hsk : ∀ t, skB [] t = false := fun t => by simp [skB]
  unfold acts blocks
  simp only [hsk, Bool.or_self, elemIdxs_eq, actsScal_noskip]
  rw [actsGroup_all, actsGroup_all]
  simp only [actsGroup_noskip, List.flatMap_cons, List.flatMap_nil, List.map_append, count, List.append_assoc, List.append_nil]

end Pymech
