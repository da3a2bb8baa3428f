import Verif.Props.FieldRead

/-!
# Truncated field files of any origin: C12
-/

set_option autoImplicit false

namespace Pymech

open Spec

variable {F : Type} [FloatTy F]

/-- More bytes at the end do not change what the actions do. -/
theorem runActs_crop (e : Endian) (h : Header) (l : List Act) (s' s t' : RS F) (hr : s'.rest <+: s.rest) (hd : s'.data = s.data)
    (hk : runActs e h l s' = .ok t') : ∃ t, runActs e h l s = .ok t ∧ t'.rest <+: t.rest ∧ t'.data = t.data := by
  induction l generalizing s' s with
  | nil =>
    cases hk
    exact ⟨s, rfl, hr, hd⟩
  | cons a l ih =>
    rw [runActs, List.foldlM_cons] at hk ⊢
    have step : ∀ u', runAct e h s' a = .ok u' → ∃ u, runAct e h s a = .ok u ∧ u'.rest <+: u.rest ∧ u'.data = u.data := by
      have hdrop : ∀ n, s'.rest.drop n <+: s.rest.drop n := fun n => by
        obtain ⟨r, hr⟩ := hr
        rw [← hr, List.drop_append]
        exact List.prefix_append _ _
      intro u' hu
      cases a with
      | rd f j d =>
        simp only [runAct] at hu ⊢
        rw [← hd]
        cases hj : pyIndex s'.data.elem.length j with
        | error => rw [hj] at hu; cases hu
        | ok i =>
          rw [hj] at hu
          simp only [bind, Except.bind] at hu ⊢
          unfold RS.read at hu ⊢
          dsimp only at hu ⊢
          split at hu
          · cases hu
          · rename_i hlen
            have hle := hr.length_le
            rw [if_neg (by omega), ← hd]
            have htake : s.rest.take (h.nbPts * h.wdsz).toNat = s'.rest.take (h.nbPts * h.wdsz).toNat := by
              obtain ⟨r, hr⟩ := hr
              rw [← hr, List.take_append_of_le_length (by omega)]
            rw [htake]
            cases hu
            exact ⟨_, rfl, hdrop _, rfl⟩
      | sk j =>
        cases j with
        | none =>
          cases hu
          exact ⟨_, rfl, hdrop _, hd⟩
        | some j =>
          simp only [runAct] at hu ⊢
          rw [← hd]
          cases hj : pyIndex s'.data.elem.length j with
          | error => rw [hj] at hu; cases hu
          | ok i =>
            rw [hj] at hu
            cases hu
            exact ⟨_, rfl, hdrop _, hd⟩
    cases ha : runAct e h s' a with
    | error => rw [ha] at hk; cases hk
    | ok u' =>
      rw [ha] at hk
      obtain ⟨u, hu, h1, h2⟩ := step u' ha
      rw [hu]
      exact ih u' u h1 h2 hk

/-- **C12** for files of any origin, also if variables are skipped: what is read from a truncated file is what is read from the complete one.
(With a negative number of elements nothing may follow the tag, so that the complete file is refused then.) -/
theorem C12_any (native : Endian) (S : List Text) (b : Bytes) (m : Nat) (M : HexaData F) (hr : readnek native S (b.take m) = .ok M) :
    readnek native S b = .ok M ∨ ∃ h err, readHeader b = .ok h ∧ h.nbElemsFile < 0 ∧ (readnek native S b : Py (HexaData F)) = .error err := by
  obtain ⟨h, e, elmap, hp⟩ := readnek_inv native S _ M hr
  have hm : 136 ≤ m ∧ 136 ≤ b.length := by
    have := hp.tag
    unfold tagEndian at this
    split at this
    · cases this
    · rename_i hl
      rw [not_not, List.length_take, List.length_drop, List.length_take] at hl
      omega
  have hh : readHeader b = .ok h := by
    have := hp.header
    unfold readHeader at this ⊢
    rwa [List.take_take, min_eq_left (by omega)] at this
  have ht : tagEndian ((b.drop 132).take 4) = .ok e := by
    have := hp.tag
    rwa [List.drop_take, List.take_take, min_eq_left (by omega)] at this
  by_cases hn : 0 ≤ h.nbElemsFile
  · left
    have hml := hp.mapLen
    have hmap : elmapBytes h (b.drop 136) = elmapBytes h ((b.take m).drop 136) := by
      unfold elmapBytes at hml ⊢
      rw [if_pos hn] at hml ⊢
      rw [List.drop_take] at hml ⊢
      rw [List.take_take, List.length_take] at hml
      rw [if_pos hn, List.take_take]
      by_cases hc : 4 * h.nbElemsFile.toNat ≤ m - 136
      · rw [min_eq_left hc]
      · have : m - 136 = 4 * h.nbElemsFile.toNat := by omega
        exact absurd (le_of_eq this.symm) hc
    have hp' : Parsed b h e elmap := ⟨hh, ht, by rw [hmap, hml], by rw [hmap]; exact hp.map, hp.size⟩
    rw [readnek_parsed native S _ h e elmap hp] at hr
    rw [readnek_parsed native S _ h e elmap hp']
    cases hk : runActs e h (acts h elmap S) ⟨dataSection h (b.take m), initData F native h e elmap⟩ with
    | error => rw [hk] at hr; cases hr
    | ok t' =>
      rw [hk] at hr
      obtain ⟨t, h1, -, h2⟩ := runActs_crop e h _ ⟨dataSection h (b.take m), initData F native h e elmap⟩
        ⟨dataSection h b, initData F native h e elmap⟩ t' (by
          show dataSection h (b.take m) <+: dataSection h b
          unfold dataSection
          rw [List.drop_take, List.drop_take]
          exact List.take_prefix _ _) rfl hk
      rw [h1]
      cases hr
      show Except.ok t.data = Except.ok t'.data
      rw [h2]
  · cases hf : (readnek native S b : Py (HexaData F)) with
    | error err => exact .inr ⟨h, err, hh, by omega, rfl⟩
    | ok M0 =>
      left
      obtain ⟨h', e', elmap', hp'⟩ := readnek_inv native S b M0 hf
      have : h' = h := Except.ok.inj (hp'.header.symm.trans hh)
      subst this
      have hl := hp'.mapLen
      unfold elmapBytes at hl
      rw [if_neg hn, List.length_drop] at hl
      have hb : b.take m = b := List.take_of_length_le (by omega)
      rw [hb] at hr
      rw [← hf, hr]

/-- A file that lost the whole velocity, read without the velocity. -/
example : ∃ M : HexaData F32, readnek .little ["vx".toList, "ux".toList, "uy".toList] ((Samples.file [2, 1]).take 160) = .ok M ∧
    readnek .little ["vx".toList, "ux".toList, "uy".toList] (Samples.file [2, 1]) = .ok M := by
  cases h : (readnek .little ["vx".toList, "ux".toList, "uy".toList] ((Samples.file [2, 1]).take 160) : Py (HexaData F32)) with
  | error err =>
    have : (readnek .little ["vx".toList, "ux".toList, "uy".toList] ((Samples.file [2, 1]).take 160) : Py (HexaData F32)).isOk = true := by decide +kernel
    rw [h] at this
    cases this
  | ok M =>
    refine ⟨M, rfl, ?_⟩
    rcases C12_any .little _ _ _ M h with h | ⟨hd, err, h1, h2, -⟩
    · exact h
    · have : (readHeader (Samples.file [2, 1])).toOption.map (·.nbElemsFile) = some 2 := by decide +kernel
      rw [h1] at this
      simp only [Except.toOption, Option.map_some, Option.some.injEq] at this
      omega

end Pymech
