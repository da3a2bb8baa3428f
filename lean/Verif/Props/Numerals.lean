import Verif.Props.Header
import Verif.Lemmas.Round
import Mathlib.Data.Nat.Digits.Defs

/-!
# C110: which words are numbers, and which numbers they are

The readers of headers and of `.rea` lines convert words with `int` and `float`. Here the words that are
accepted are described by a grammar, together with the number each of them stands for.
-/

set_option autoImplicit false

namespace Pymech

namespace Spec

/-- The ten digits. -/
def digit (d : Fin 10) : Char := ['0', '1', '2', '3', '4', '5', '6', '7', '8', '9'].get d

/-- Digits after the first one; each may be preceded by one underscore. -/
def tailText (l : List (Bool × Fin 10)) : Text := l.flatMap fun p => if p.1 then ['_', digit p.2] else [digit p.2]

/-- `t` is a run of `n ≥ 1` digits with the decimal value `v`, in which single underscores may separate digits. -/
def Run (t : Text) (v n : Nat) : Prop :=
  ∃ (d : Fin 10) (l : List (Bool × Fin 10)), t = digit d :: tailText l ∧
    v = Nat.ofDigits 10 ((d :: l.map Prod.snd).map Fin.val).reverse ∧ n = l.length + 1

/-- An optional sign; the flag tells whether it is a minus. -/
inductive Sign : Text → Bool → Prop
  | none : Sign [] false
  | plus : Sign ['+'] false
  | minus : Sign ['-'] true

/-- `t` denotes the integer `i`. -/
def IntWord (t : Text) (i : Int) : Prop :=
  ∃ s neg u v n, t = s ++ u ∧ Sign s neg ∧ Run u v n ∧ i = if neg then -(v : Int) else (v : Int)

/-- `t` is an unsigned decimal fraction with the value `q`. -/
inductive Fraction : Text → ℚ → Prop
  | int {u v n} : Run u v n → Fraction u v
  | dot {u v n} : Run u v n → Fraction (u ++ ['.']) v
  | frac {u v n} : Run u v n → Fraction ('.' :: u) (v / 10 ^ n)
  | both {u v n u' v' n'} : Run u v n → Run u' v' n' → Fraction (u ++ '.' :: u') (v + v' / 10 ^ n')

/-- `t` is a signed decimal number, possibly with an exponent, with the absolute value `q`. -/
def DecWord (t : Text) (neg : Bool) (q : ℚ) : Prop :=
  ∃ s u r, Sign s neg ∧ Fraction u r ∧
    ((t = s ++ u ∧ q = r) ∨ ∃ E w k, (E = 'e' ∨ E = 'E') ∧ IntWord w k ∧ t = s ++ u ++ E :: w ∧ q = r * 10 ^ k)

/-- `t` is the word `w` in capital or small letters, possibly with a sign. -/
def Named (w t : Text) (neg : Bool) : Prop := ∃ s u, t = s ++ u ∧ Sign s neg ∧ u.map Char.toLower = w

/-- `x` is the double nearest to `q ≥ 0`, with the given sign; of two equally near doubles the one with an even last bit.
Infinity counts as `2 ^ 1024`, the number after the largest double. -/
def Nearest (neg : Bool) (q : ℚ) (x : F64) : Prop :=
  x.neg = neg ∧ ¬ x.IsNaN ∧ ∀ y : F64, ¬ y.IsNaN →
    |absVal x - q| ≤ |absVal y - q| ∧ (y.mag ≠ x.mag → |absVal y - q| = |absVal x - q| → x.mag % 2 = 0)

end Spec

open Spec

theorem digitV_digit (d : Fin 10) : digitV (digit d) = some d.val := by
  revert d; decide

theorem digitV_iff (c : Char) (v : Nat) : digitV c = some v ↔ ∃ d : Fin 10, c = digit d ∧ v = d.val := by
  constructor
  · intro h
    unfold digitV at h
    split at h
    · next hc =>
      have hv := Option.some.inj h
      refine ⟨⟨v, by omega⟩, ?_, rfl⟩
      have e : c = Char.ofNat (48 + v) := by
        rw [← Char.ofNat_toNat c]; congr 1; omega
      have hv' : v < 10 := by omega
      refine e.trans ?_
      clear * - hv'
      interval_cases v <;> rfl
    · cases h
  · rintro ⟨d, rfl, rfl⟩; exact digitV_digit d

theorem digit_ne_underscore (d : Fin 10) : digit d ≠ '_' := by revert d; decide

/-- Value of further digits. -/
def tailVal (acc : Nat) (l : List (Bool × Fin 10)) : Nat := l.foldl (fun a p => a * 10 + p.2.val) acc

theorem tailVal_eq (acc : Nat) (l : List (Bool × Fin 10)) :
    tailVal acc l = acc * 10 ^ l.length + Nat.ofDigits 10 ((l.map Prod.snd).map Fin.val).reverse := by
  induction l generalizing acc with
  | nil => simp [tailVal]
  | cons p l ih =>
    rw [show tailVal acc (p :: l) = tailVal (acc * 10 + p.2.val) l from rfl, ih, List.map_cons, List.map_cons, List.reverse_cons,
      Nat.ofDigits_append, List.length_cons]
    simp only [List.length_reverse, List.length_map, Nat.ofDigits_singleton]
    ring

theorem runGo_iff (t : Text) : ∀ acc n v m, runGo acc n t = some (v, m) ↔
    ∃ l : List (Bool × Fin 10), t = tailText l ∧ v = tailVal acc l ∧ m = n + l.length := by
  induction hk : t.length using Nat.strongRecOn generalizing t with
  | ind k ih =>
  intro acc n v m
  match t, hk with
  | [], _ =>
    simp only [runGo, Option.some.injEq, Prod.mk.injEq]
    constructor
    · rintro ⟨rfl, rfl⟩; exact ⟨[], rfl, rfl, rfl⟩
    · rintro ⟨l, h, rfl, rfl⟩
      cases l with
      | nil => exact ⟨rfl, rfl⟩
      | cons p l => exfalso; simp only [tailText, List.flatMap_cons] at h; split at h <;> cases h
  | [c], _ =>
    simp only [runGo, Option.map_eq_some_iff, Prod.mk.injEq]
    constructor
    · rintro ⟨d, hd, rfl, rfl⟩
      obtain ⟨d', rfl, rfl⟩ := (digitV_iff _ _).mp hd
      exact ⟨[(false, d')], rfl, rfl, rfl⟩
    · rintro ⟨l, h, rfl, rfl⟩
      match l, h with
      | [(false, d)], h =>
        have : c = digit d := by simpa [tailText] using h
        exact ⟨d.val, by rw [this, digitV_digit], rfl, rfl⟩
      | (false, d) :: (b, d') :: l, h => exfalso; cases b <;> simp [tailText] at h
      | (true, d) :: l, h => exfalso; simp [tailText] at h
  | c :: c' :: cs, hk =>
    simp only [runGo]
    cases hc : digitV c with
    | some d =>
      obtain ⟨d', rfl, rfl⟩ := (digitV_iff _ _).mp hc
      dsimp only
      rw [ih (c' :: cs).length (by rw [← hk]; simp) (c' :: cs) rfl]
      constructor
      · rintro ⟨l, h1, h2, h3⟩
        refine ⟨(false, d') :: l, ?_, h2, by rw [List.length_cons]; omega⟩
        rw [h1]; rfl
      · rintro ⟨l, h1, h2, h3⟩
        match l, h1 with
        | (false, d'') :: l, h1 =>
          have h1' : digit d' = digit d'' ∧ c' :: cs = tailText l := by simpa [tailText] using h1
          have : d' = d'' := by
            have := (digitV_digit d').symm.trans ((congrArg digitV h1'.1).trans (digitV_digit d''))
            exact Fin.ext (Option.some.inj this)
          subst this
          exact ⟨l, h1'.2, h2, by rw [List.length_cons] at h3; omega⟩
        | (true, d'') :: l, h1 => exfalso; simp [tailText, digit_ne_underscore] at h1
    | none =>
      dsimp only
      by_cases hu : c = '_'
      · subst hu
        rw [if_pos rfl, Option.bind_eq_some_iff]
        constructor
        · rintro ⟨d, hd, hr⟩
          obtain ⟨d', rfl, rfl⟩ := (digitV_iff _ _).mp hd
          rw [ih cs.length (by rw [← hk]; simp; omega) cs rfl] at hr
          obtain ⟨l, h1, h2, h3⟩ := hr
          exact ⟨(true, d') :: l, by rw [h1]; rfl, h2, by rw [List.length_cons]; omega⟩
        · rintro ⟨l, h1, h2, h3⟩
          match l, h1 with
          | (false, d'') :: l, h1 =>
            exfalso
            have : '_' = digit d'' := by simp [tailText] at h1; exact h1.1
            exact digit_ne_underscore _ this.symm
          | (true, d'') :: l, h1 =>
            have h1' : c' = digit d'' ∧ cs = tailText l := by simpa [tailText] using h1
            refine ⟨d''.val, by rw [h1'.1, digitV_digit], ?_⟩
            rw [ih cs.length (by rw [← hk]; simp; omega) cs rfl]
            exact ⟨l, h1'.2, h2, by rw [List.length_cons] at h3; omega⟩
      · rw [if_neg hu]
        constructor
        · intro h; cases h
        · rintro ⟨l, h1, -, -⟩
          exfalso
          match l, h1 with
          | (false, d'') :: l, h1 =>
            have : c = digit d'' := by simp [tailText] at h1; exact h1.1
            rw [this, digitV_digit] at hc
            cases hc
          | (true, d'') :: l, h1 => exact hu (by simp [tailText] at h1; exact h1.1)

theorem runV_iff (t : Text) (v n : Nat) : runV t = some (v, n) ↔ Run t v n := by
  cases t with
  | nil =>
    constructor
    · intro h; cases h
    · rintro ⟨d, l, h, -⟩; cases h
  | cons c cs =>
    rw [runV, Option.bind_eq_some_iff]
    have key : ∀ (d : Fin 10) (l : List (Bool × Fin 10)),
        tailVal d.val l = Nat.ofDigits 10 ((d :: l.map Prod.snd).map Fin.val).reverse := by
      intro d l
      rw [tailVal_eq, List.map_cons, List.reverse_cons, Nat.ofDigits_append]
      simp only [List.length_reverse, List.length_map, Nat.ofDigits_singleton]
      ring
    constructor
    · rintro ⟨d, hd, hr⟩
      obtain ⟨d', rfl, rfl⟩ := (digitV_iff _ _).mp hd
      obtain ⟨l, rfl, rfl, rfl⟩ := (runGo_iff _ _ _ _ _).mp hr
      exact ⟨d', l, rfl, key d' l, by omega⟩
    · rintro ⟨d, l, h, rfl, rfl⟩
      obtain ⟨rfl, rfl⟩ := List.cons.inj h
      exact ⟨d.val, digitV_digit d, (runGo_iff _ _ _ _ _).mpr ⟨l, rfl, (key d l).symm, by omega⟩⟩

/-- The characters of a run of digits. -/
theorem run_chars (t : Text) (v n : Nat) (h : Run t v n) : ∀ c ∈ t, c = '_' ∨ ∃ d, c = digit d := by
  obtain ⟨d, l, rfl, -, -⟩ := h
  intro c hc
  rcases List.mem_cons.mp hc with rfl | hc
  · exact .inr ⟨d, rfl⟩
  · unfold tailText at hc
    obtain ⟨p, -, hp⟩ := List.mem_flatMap.mp hc
    split at hp
    · rcases List.mem_cons.mp hp with rfl | hp
      · exact .inl rfl
      · exact .inr ⟨_, List.mem_singleton.mp hp⟩
    · exact .inr ⟨_, List.mem_singleton.mp hp⟩

theorem run_ne (t : Text) (v n : Nat) (h : Run t v n) : t ≠ [] := by
  obtain ⟨d, l, rfl, -, -⟩ := h
  simp

theorem run_head (t : Text) (v n : Nat) (h : Run t v n) : ∃ d r, t = digit d :: r := by
  obtain ⟨d, l, rfl, -, -⟩ := h
  exact ⟨d, _, rfl⟩

/-- `signOf` takes off the sign of a text that does not begin with two. -/
theorem signOf_sound (t : Text) : ∃ s, t = s ++ (signOf t).2 ∧ Sign s (signOf t).1 := by
  cases t with
  | nil => exact ⟨[], rfl, .none⟩
  | cons c cs =>
    unfold signOf
    dsimp only
    split_ifs with h1 h2
    · subst h1; exact ⟨['-'], rfl, .minus⟩
    · subst h2; exact ⟨['+'], rfl, .plus⟩
    · exact ⟨[], rfl, .none⟩

theorem signOf_complete (s u : Text) (neg : Bool) (h : Sign s neg) (hu : ∀ c r, u = c :: r → c ≠ '-' ∧ c ≠ '+') :
    signOf (s ++ u) = (neg, u) := by
  cases h with
  | plus => rfl
  | minus => rfl
  | none =>
    cases u with
    | nil => rfl
    | cons c r =>
      obtain ⟨h1, h2⟩ := hu c r rfl
      simp [signOf, h1, h2]

theorem digit_not_sign (d : Fin 10) : digit d ≠ '-' ∧ digit d ≠ '+' := by revert d; decide

/-- **C110**, integers. `int(word)` succeeds exactly for an optional sign followed by digits with single underscores
between digits, and returns their decimal value. -/
theorem C110_int (t : Text) (i : Int) : pyInt t = some i ↔ IntWord t i := by
  unfold pyInt
  dsimp only
  rw [Option.map_eq_some_iff]
  constructor
  · rintro ⟨⟨v, n⟩, hr, rfl⟩
    obtain ⟨s, hs, hsg⟩ := signOf_sound t
    exact ⟨s, _, _, v, n, hs, hsg, (runV_iff _ _ _).mp hr, rfl⟩
  · rintro ⟨s, neg, u, v, n, rfl, hsg, hr, rfl⟩
    have := signOf_complete s u neg hsg (by
      intro c r hc
      obtain ⟨d, r', rfl⟩ := run_head u v n hr
      rw [← (List.cons.inj hc).1]
      exact digit_not_sign d)
    rw [this]
    exact ⟨(v, n), (runV_iff _ _ _).mpr hr, rfl⟩

/-! ### Fractions -/

theorem cutAt_spec (p : Char → Bool) (t : Text) :
    (∀ c ∈ (cutAt p t).1, p c = false) ∧
      ((cutAt p t).2 = none ∧ t = (cutAt p t).1 ∨
        ∃ c r, (cutAt p t).2 = some r ∧ p c = true ∧ t = (cutAt p t).1 ++ c :: r) := by
  induction t with
  | nil => exact ⟨by simp [cutAt], .inl ⟨rfl, rfl⟩⟩
  | cons c cs ih =>
    rw [cutAt]
    by_cases hc : p c = true
    · rw [if_pos hc]
      exact ⟨by simp, .inr ⟨c, cs, rfl, hc, rfl⟩⟩
    · rw [if_neg hc]
      dsimp only
      obtain ⟨h1, h2⟩ := ih
      refine ⟨?_, ?_⟩
      · intro d hd
        rcases List.mem_cons.mp hd with rfl | hd
        · simpa using hc
        · exact h1 d hd
      · rcases h2 with ⟨a, b⟩ | ⟨d, r, a, b, e⟩
        · exact .inl ⟨a, by rw [← b]⟩
        · exact .inr ⟨d, r, a, b, by rw [List.cons_append, ← e]⟩

theorem run_no_point (t : Text) (v n : Nat) (h : Run t v n) : ∀ c ∈ t, (c == '.') = false := by
  intro c hc
  rcases run_chars t v n h c hc with rfl | ⟨d, rfl⟩
  · rfl
  · clear hc; revert d; decide

/-- The value of the mantissa: digits as a number, divided by a power of ten. -/
theorem mantV_iff (t : Text) (q : ℚ) : (∃ m n, mantV t = some (m, n) ∧ q = (m : ℚ) / 10 ^ n) ↔ Fraction t q := by
  constructor
  · rintro ⟨m, n, h, rfl⟩
    obtain ⟨-, hcut⟩ := cutAt_spec (· == '.') t
    unfold mantV at h
    generalize hg : cutAt (· == '.') t = g at h hcut
    obtain ⟨ip, r⟩ := g
    dsimp only at h hcut
    rcases hcut with ⟨rfl, rfl⟩ | ⟨c, fp, rfl, hc, rfl⟩
    · dsimp only at h
      obtain ⟨⟨v, k⟩, hr, he⟩ := Option.map_eq_some_iff.mp h
      obtain ⟨rfl, rfl⟩ := Prod.mk.inj he
      simpa using Fraction.int ((runV_iff _ _ _).mp hr)
    · have hc' : c = '.' := by simpa using hc
      subst hc'
      dsimp only at h
      split_ifs at h with h1 h2
      · subst h1
        exact Fraction.frac ((runV_iff _ _ _).mp h)
      · subst h2
        obtain ⟨⟨v, k⟩, hr, he⟩ := Option.map_eq_some_iff.mp h
        obtain ⟨rfl, rfl⟩ := Prod.mk.inj he
        simpa using Fraction.dot ((runV_iff _ _ _).mp hr)
      · obtain ⟨⟨v, k⟩, hr, h⟩ := Option.bind_eq_some_iff.mp h
        obtain ⟨⟨w, k'⟩, hr', he⟩ := Option.map_eq_some_iff.mp h
        obtain ⟨rfl, rfl⟩ := Prod.mk.inj he
        have := Fraction.both ((runV_iff _ _ _).mp hr) ((runV_iff _ _ _).mp hr')
        have e : (((v * 10 ^ k' + w : Nat) : ℚ)) / 10 ^ k' = v + w / 10 ^ k' := by
          push_cast
          rw [add_div, mul_div_cancel_right₀ _ (by positivity)]
        rw [e]; exact this
  · intro h
    unfold mantV
    cases h with
    | @int u v n h =>
      rw [cutAt_none _ _ (run_no_point _ _ _ h)]
      exact ⟨v, 0, by simp [(runV_iff _ _ _).mpr h], by simp⟩
    | @dot u v n h =>
      rw [cutAt_append _ u '.' [] (run_no_point _ _ _ h) rfl]
      exact ⟨v, 0, by simp [run_ne _ _ _ h, (runV_iff _ _ _).mpr h], by simp⟩
    | @frac u v n h =>
      rw [show cutAt (· == '.') ('.' :: u) = ([], some u) from rfl]
      exact ⟨v, n, by simp [(runV_iff _ _ _).mpr h], rfl⟩
    | @both u v n u' v' n' h h' =>
      rw [cutAt_append _ u '.' u' (run_no_point _ _ _ h) rfl]
      refine ⟨v * 10 ^ n' + v', n', ?_, ?_⟩
      · simp [run_ne _ _ _ h, run_ne _ _ _ h', (runV_iff _ _ _).mpr h, (runV_iff _ _ _).mpr h']
      · push_cast
        rw [add_div, mul_div_cancel_right₀ _ (by positivity)]

theorem fraction_chars (u : Text) (q : ℚ) (h : Fraction u q) : ∀ c ∈ u, c = '.' ∨ c = '_' ∨ ∃ d, c = digit d := by
  intro c hc
  cases h with
  | int h => exact .inr (run_chars _ _ _ h c hc)
  | dot h =>
    rcases List.mem_append.mp hc with hc | hc
    · exact .inr (run_chars _ _ _ h c hc)
    · exact .inl (List.mem_singleton.mp hc)
  | frac h =>
    rcases List.mem_cons.mp hc with rfl | hc
    · exact .inl rfl
    · exact .inr (run_chars _ _ _ h c hc)
  | both h h' =>
    rcases List.mem_append.mp hc with hc | hc
    · exact .inr (run_chars _ _ _ h c hc)
    rcases List.mem_cons.mp hc with rfl | hc
    · exact .inl rfl
    · exact .inr (run_chars _ _ _ h' c hc)

theorem fraction_ne (u : Text) (q : ℚ) (h : Fraction u q) : u ≠ [] := by
  cases h with
  | int h => exact run_ne _ _ _ h
  | dot h => simp
  | frac h => simp
  | both h h' => simp

theorem fraction_no_exp (u : Text) (q : ℚ) (h : Fraction u q) : ∀ c ∈ u, (c == 'e' || c == 'E') = false := by
  intro c hc
  rcases fraction_chars u q h c hc with rfl | rfl | ⟨d, rfl⟩
  · rfl
  · rfl
  · clear hc; revert d; decide

theorem decLit_iff (t : Text) (neg : Bool) (q : ℚ) :
    (∃ d, decLit t = some d ∧ d.neg = neg ∧ q = (d.m : ℚ) * 10 ^ d.e) ↔ DecWord t neg q := by
  have ten : (10 : ℚ) ≠ 0 := by norm_num
  constructor
  · rintro ⟨d, h, rfl, rfl⟩
    obtain ⟨s, hs, hsg⟩ := signOf_sound t
    unfold decLit at h
    generalize hg : signOf t = g at h hs hsg
    obtain ⟨neg, u⟩ := g
    dsimp only at h hs hsg
    obtain ⟨-, hcut⟩ := cutAt_spec (fun c => c == 'e' || c == 'E') u
    generalize hg' : cutAt (fun c => c == 'e' || c == 'E') u = g' at h hcut
    obtain ⟨a, r⟩ := g'
    dsimp only at h hcut
    rcases hcut with ⟨rfl, rfl⟩ | ⟨c, w, rfl, hc, rfl⟩
    · dsimp only at h
      obtain ⟨⟨m, n⟩, hm, rfl⟩ := Option.map_eq_some_iff.mp h
      refine ⟨s, u, _, hsg, (mantV_iff _ _).mp ⟨m, n, hm, rfl⟩, .inl ⟨hs, ?_⟩⟩
      dsimp only
      rw [zpow_neg, zpow_natCast, div_eq_mul_inv]
    · dsimp only at h
      obtain ⟨⟨m, n⟩, hm, h⟩ := Option.bind_eq_some_iff.mp h
      obtain ⟨k, hk, rfl⟩ := Option.map_eq_some_iff.mp h
      refine ⟨s, a, _, hsg, (mantV_iff _ _).mp ⟨m, n, hm, rfl⟩, .inr ⟨c, w, k, ?_, (C110_int _ _).mp hk, ?_, ?_⟩⟩
      · simpa using hc
      · rw [List.append_assoc]; exact hs
      · dsimp only
        rw [zpow_sub₀ ten, zpow_natCast]
        ring
  · rintro ⟨s, u, r, hsg, hf, h⟩
    obtain ⟨m, n, hm, rfl⟩ := (mantV_iff _ _).mpr hf
    have hu : ∀ x : Text, ∀ c l, u ++ x = c :: l → c ≠ '-' ∧ c ≠ '+' := by
      intro x c l hc
      cases u with
      | nil => exact absurd rfl (fraction_ne _ _ hf)
      | cons c' l' =>
        obtain ⟨rfl, -⟩ := List.cons.inj hc
        rcases fraction_chars _ _ hf c' (by simp) with rfl | rfl | ⟨d, rfl⟩
        · decide
        · decide
        · exact digit_not_sign d
    rcases h with ⟨rfl, rfl⟩ | ⟨E, w, k, hE, hk, rfl, rfl⟩
    · have h1 := signOf_complete s u neg hsg (by simpa using hu [])
      refine ⟨⟨neg, m, -(n : Int)⟩, ?_, rfl, ?_⟩
      · unfold decLit
        rw [h1]
        dsimp only
        rw [cutAt_none _ _ (fraction_no_exp _ _ hf)]
        simp [hm]
      · dsimp only
        rw [zpow_neg, zpow_natCast, div_eq_mul_inv]
    · have h1 := signOf_complete s (u ++ E :: w) neg hsg (hu _)
      have hk' := (C110_int _ _).mpr hk
      refine ⟨⟨neg, m, k - n⟩, ?_, rfl, ?_⟩
      · unfold decLit
        rw [List.append_assoc, h1]
        dsimp only
        rw [cutAt_append _ u E w (fraction_no_exp _ _ hf) (by rcases hE with rfl | rfl <;> rfl)]
        simp [hm, hk']
      · dsimp only
        rw [zpow_sub₀ ten, zpow_natCast]
        ring

/-! ### Doubles -/

theorem lowerC_eq (c : Char) : lowerC c = c.toLower := by
  unfold lowerC
  by_cases h : 65 ≤ c.toNat ∧ c.toNat ≤ 90
  · rw [if_pos h]
    generalize hk : c.toNat = k at h
    have e : c = Char.ofNat k := by rw [← hk, Char.ofNat_toNat]
    subst e
    obtain ⟨h1, h2⟩ := h
    clear hk
    interval_cases k <;> rfl
  · rw [if_neg h]
    unfold Char.toLower
    rw [dif_neg]
    exact h

theorem signOf_named (w t : Text) (neg : Bool) (hw : ∀ c r, w = c :: r → c ≠ '-' ∧ c ≠ '+') :
    ((signOf t).1 = neg ∧ (signOf t).2.map lowerC = w) ↔ Named w t neg := by
  have hl : lowerC = Char.toLower := funext lowerC_eq
  constructor
  · rintro ⟨rfl, h⟩
    obtain ⟨s, hs, hsg⟩ := signOf_sound t
    exact ⟨s, _, hs, hsg, by rw [← hl]; exact h⟩
  · rintro ⟨s, u, rfl, hsg, hu⟩
    rw [signOf_complete s u neg hsg (by
      rintro c r rfl
      rw [List.map_cons] at hu
      have := hw _ _ hu.symm
      constructor
      · rintro rfl; exact this.1 rfl
      · rintro rfl; exact this.2 rfl)]
    exact ⟨rfl, by rw [hl]; exact hu⟩

/-- What the model computes is a nearest double. -/
theorem nearest_ofRat (neg : Bool) (q : ℚ) (hq : 0 ≤ q) : Nearest neg q (Flt.ofRat neg q) := by
  refine ⟨rfl, ?_, fun y hy => ?_⟩
  · simp only [Flt.IsNaN, not_lt]; exact Flt.roundMag_le 11 52 q
  · unfold Flt.IsNaN at hy
    by_cases hf : Flt.roundMag 11 52 q < Flt.infMag 11 52
    · exact ⟨Flt.roundMag_nearest q hq hf y.mag, fun hne ht => Flt.roundMag_even_any (by norm_num) q hq hf y.mag hne ht⟩
    · have e : (Flt.ofRat neg q : F64).mag = Flt.infMag 11 52 := le_antisymm (Flt.roundMag_le 11 52 q) (not_lt.mp hf)
      refine ⟨?_, fun _ _ => by rw [e]; exact Flt.infMag_even (by norm_num)⟩
      unfold absVal
      rw [e]
      exact Flt.roundMag_inf q hq hf y.mag (not_lt.mp hy)

/-- There is only one nearest double. -/
theorem nearest_unique (neg : Bool) (q : ℚ) (x y : F64) (hx : Nearest neg q x) (hy : Nearest neg q y) : x = y := by
  obtain ⟨x1, x2, x3⟩ := hx
  obtain ⟨y1, y2, y3⟩ := hy
  have hk : ∀ k ≤ Flt.infMag 11 52, k < 2 ^ (11 + 52) := fun k hk => lt_of_le_of_lt hk (Flt.infMag_lt 11 52)
  have hm : x.mag = y.mag := Flt.nearest_eq (eb := 11) (mb := 52) q (Flt.infMag 11 52) x.mag y.mag (not_lt.mp x2) (not_lt.mp y2)
    (fun k h => x3 ⟨false, k, hk k h⟩ (not_lt.mpr h)) (fun k h => y3 ⟨false, k, hk k h⟩ (not_lt.mpr h))
  obtain ⟨a, b, c⟩ := x
  obtain ⟨a', b', c'⟩ := y
  simp only at x1 y1 hm
  subst hm
  subst x1
  subst y1
  rfl

theorem fraction_nonneg (u : Text) (q : ℚ) (h : Fraction u q) : 0 ≤ q := by
  cases h <;> positivity

theorem decWord_nonneg (t : Text) (neg : Bool) (q : ℚ) (h : DecWord t neg q) : 0 ≤ q := by
  obtain ⟨s, u, r, -, hf, h⟩ := h
  have hr := fraction_nonneg u r hf
  rcases h with ⟨-, rfl⟩ | ⟨_, _, k, -, -, -, rfl⟩
  · exact hr
  · exact mul_nonneg hr (zpow_nonneg (by norm_num) k)

/-- The number of a decimal word is unique. -/
theorem decWord_unique (t : Text) (neg neg' : Bool) (q q' : ℚ) (h : DecWord t neg q) (h' : DecWord t neg' q') :
    neg = neg' ∧ q = q' := by
  obtain ⟨d, hd, rfl, rfl⟩ := (decLit_iff _ _ _).mpr h
  obtain ⟨d', hd', rfl, rfl⟩ := (decLit_iff _ _ _).mpr h'
  rw [hd] at hd'
  rw [Option.some.inj hd']
  exact ⟨rfl, rfl⟩

/-- A word that begins like a name is not a decimal number. -/
theorem named_not_dec (w t : Text) (neg neg' : Bool) (q : ℚ) (hn : Named w t neg) (hw : w = "nan".toList ∨ w = "inf".toList ∨ w = "infinity".toList) :
    ¬ DecWord t neg' q := by
  rintro ⟨s, u, r, hs, hf, h⟩
  obtain ⟨s', u', rfl, hs', hu'⟩ := hn
  have e : ∃ x, s' ++ u' = s ++ (u ++ x) := by
    rcases h with ⟨h, -⟩ | ⟨E, w, k, -, -, h, -⟩
    · exact ⟨[], by simpa using h⟩
    · exact ⟨E :: w, by simpa using h⟩
  obtain ⟨x, e⟩ := e
  have hne := fraction_ne u r hf
  obtain ⟨c, l, rfl⟩ := List.exists_cons_of_ne_nil hne
  have hc : (c = '.' ∨ c = '_' ∨ ∃ d, c = digit d) := fraction_chars _ _ hf c (by simp)
  have hcl : c.toLower ≠ 'n' ∧ c.toLower ≠ 'i' ∧ c ≠ '+' ∧ c ≠ '-' := by
    rcases hc with rfl | rfl | ⟨d, rfl⟩
    · decide
    · decide
    · clear * -; revert d; decide
  have hu0 : ∃ c' l', u' = c' :: l' ∧ (c'.toLower = 'n' ∨ c'.toLower = 'i') := by
    cases u' with
    | nil => rcases hw with rfl | rfl | rfl <;> cases hu'
    | cons c' l' =>
      refine ⟨c', l', rfl, ?_⟩
      rw [List.map_cons] at hu'
      rcases hw with rfl | rfl | rfl
      · exact .inl (List.cons.inj hu').1
      · exact .inr (List.cons.inj hu').1
      · exact .inr (List.cons.inj hu').1
  obtain ⟨c', l', rfl, hc'⟩ := hu0
  have hp : c' ≠ '+' ∧ c' ≠ '-' := by
    constructor <;> rintro rfl <;> revert hc' <;> decide
  have : c = c' := by
    cases hs <;> cases hs' <;> simp only [List.nil_append, List.cons_append, List.cons.injEq] at e
    all_goals first
      | exact e.1.symm
      | exact e.2.1.symm
      | exact absurd e.1 hp.1
      | exact absurd e.1 hp.2
      | exact absurd e.1.symm hcl.2.2.1
      | exact absurd e.1.symm hcl.2.2.2
  subst this
  rcases hc' with h | h
  · exact hcl.1 h
  · exact hcl.2.1 h

/-- **C110**, floating point numbers. `float(word)` succeeds exactly for the names of NaN and infinity and for decimal
numbers, and returns the nearest double. -/
theorem C110_float (t : Text) (x : F64) : pyFloat t = some x ↔
    (∃ neg, Named "nan".toList t neg ∧ x = nan64 neg) ∨
    (∃ neg, (Named "inf".toList t neg ∨ Named "infinity".toList t neg) ∧ x = inf64 neg) ∨
    (∃ neg q, DecWord t neg q ∧ x = Flt.ofRat neg q) := by
  have n1 := fun neg => signOf_named "nan".toList t neg (by rintro c r h; rw [← (List.cons.inj h).1]; decide)
  have n2 := fun neg => signOf_named "inf".toList t neg (by rintro c r h; rw [← (List.cons.inj h).1]; decide)
  have n3 := fun neg => signOf_named "infinity".toList t neg (by rintro c r h; rw [← (List.cons.inj h).1]; decide)
  have dd : ∀ neg q, DecWord t neg q → ∃ d, decLit t = some d ∧ d.neg = neg ∧ q = (d.m : ℚ) * 10 ^ d.e :=
    fun neg q => (decLit_iff t neg q).mpr
  simp only [pyFloat]
  generalize hs : signOf t = g at n1 n2 n3
  obtain ⟨neg, u⟩ := g
  dsimp only at n1 n2 n3 ⊢
  split_ifs with h1 h2
  · constructor
    · intro h
      exact .inl ⟨neg, (n1 neg).mp ⟨rfl, h1⟩, (Option.some.inj h).symm⟩
    · rintro (⟨neg', hn, rfl⟩ | ⟨neg', hn, rfl⟩ | ⟨neg', q, hd, rfl⟩)
      · rw [((n1 neg').mpr hn).1]
      · exfalso
        rcases hn with hn | hn
        · have := ((n2 neg').mpr hn).2; rw [h1] at this; exact absurd this (by decide)
        · have := ((n3 neg').mpr hn).2; rw [h1] at this; exact absurd this (by decide)
      · exact absurd hd (named_not_dec _ _ _ _ _ ((n1 neg).mp ⟨rfl, h1⟩) (.inl rfl))
  · constructor
    · intro h
      refine .inr (.inl ⟨neg, ?_, (Option.some.inj h).symm⟩)
      rcases h2 with h2 | h2
      · exact .inl ((n2 neg).mp ⟨rfl, h2⟩)
      · exact .inr ((n3 neg).mp ⟨rfl, h2⟩)
    · rintro (⟨neg', hn, rfl⟩ | ⟨neg', hn, rfl⟩ | ⟨neg', q, hd, rfl⟩)
      · exact absurd ((n1 neg').mpr hn).2 h1
      · rcases hn with hn | hn
        · rw [((n2 neg').mpr hn).1]
        · rw [((n3 neg').mpr hn).1]
      · exfalso
        rcases h2 with h2 | h2
        · exact named_not_dec _ _ _ _ _ ((n2 neg).mp ⟨rfl, h2⟩) (.inr (.inl rfl)) hd
        · exact named_not_dec _ _ _ _ _ ((n3 neg).mp ⟨rfl, h2⟩) (.inr (.inr rfl)) hd
  · rw [not_or] at h2
    constructor
    · intro h
      obtain ⟨d, hd, rfl⟩ := Option.map_eq_some_iff.mp h
      exact .inr (.inr ⟨d.neg, _, (decLit_iff _ _ _).mp ⟨d, hd, rfl, rfl⟩, rfl⟩)
    · rintro (⟨neg', hn, rfl⟩ | ⟨neg', hn, rfl⟩ | ⟨neg', q, hd, rfl⟩)
      · exact absurd ((n1 neg').mpr hn).2 h1
      · rcases hn with hn | hn
        · exact absurd ((n2 neg').mpr hn).2 h2.1
        · exact absurd ((n3 neg').mpr hn).2 h2.2
      · obtain ⟨d, hd', rfl, rfl⟩ := dd _ _ hd
        rw [hd']; rfl

/-- **C110**. What `read_header` returns are the numbers denoted by the words of the header. -/
theorem C110_header (b : Bytes) (h : Header) (hr : readHeader b = .ok h) :
    ∃ w0 w1 w2 w3 w4 w5 w6 w7 w8 w9 w10 more,
      Words blank (decodeB (b.take 132)) (w0 :: w1 :: w2 :: w3 :: w4 :: w5 :: w6 :: w7 :: w8 :: w9 :: w10 :: h.vstr :: more) ∧
      IntWord w1 h.wdsz ∧ IntWord w2 h.ox ∧ IntWord w3 h.oy ∧ IntWord w4 h.oz ∧ IntWord w5 h.nbElems ∧
      IntWord w6 h.nbElemsFile ∧ IntWord w8 h.istep ∧ IntWord w9 h.fid ∧ IntWord w10 h.nbFiles ∧
      (h.time.Finite → ∃ neg q, DecWord w7 neg q ∧ Nearest neg q h.time) := by
  obtain ⟨w0, w1, w2, w3, w4, w5, w6, w7, w8, w9, w10, more, hw, h1, h2, h3, h4, h5, h6, h7, h8, h9, h10, -⟩ := C08_sound b h hr
  refine ⟨w0, w1, w2, w3, w4, w5, w6, w7, w8, w9, w10, more, hw, (C110_int _ _).mp h1, (C110_int _ _).mp h2,
    (C110_int _ _).mp h3, (C110_int _ _).mp h4, (C110_int _ _).mp h5, (C110_int _ _).mp h6, (C110_int _ _).mp h8,
    (C110_int _ _).mp h9, (C110_int _ _).mp h10, fun hf => ?_⟩
  rcases (C110_float _ _).mp h7 with ⟨neg, -, e⟩ | ⟨neg, -, e⟩ | ⟨neg, q, hd, e⟩
  · rw [e] at hf; exfalso; revert hf; cases neg <;> decide +kernel
  · rw [e] at hf; exfalso; revert hf; cases neg <;> decide +kernel
  · exact ⟨neg, q, hd, e ▸ nearest_ofRat neg q (decWord_nonneg _ _ _ hd)⟩

/-- **C110**. A header in which one of the numbers is not the text of a number is refused with `ValueError`. -/
theorem C110_refused (b : Bytes) (w0 w1 w2 w3 w4 w5 w6 w7 w8 w9 w10 vars : Text) (more : List Text)
    (hs : Words blank (decodeB (b.take 132)) (w0 :: w1 :: w2 :: w3 :: w4 :: w5 :: w6 :: w7 :: w8 :: w9 :: w10 :: vars :: more))
    (hb : (∃ w ∈ [w1, w2, w3, w4, w5, w6, w8, w9, w10], ¬ ∃ i, IntWord w i) ∨
      ¬ ∃ neg, Named "nan".toList w7 neg ∨ Named "inf".toList w7 neg ∨ Named "infinity".toList w7 neg ∨ ∃ q, DecWord w7 neg q) :
    readHeader b = .error .valueError := by
  have ne : ∀ w, (¬ ∃ i, IntWord w i) → pyInt w = none := by
    intro w hw
    cases h : pyInt w with
    | none => rfl
    | some i => exact absurd ⟨i, (C110_int _ _).mp h⟩ hw
  have val : ∀ {α : Type} (x : Option α), orValueError x = .error .valueError ∨ ∃ a, x = some a ∧ orValueError x = .ok a := by
    intro α x
    cases x with
    | none => exact .inl rfl
    | some a => exact .inr ⟨a, rfl, rfl⟩
  unfold readHeader
  rw [splitT_of_words _ _ hs]
  simp only [bind, Except.bind]
  rcases val (pyInt w1) with h | ⟨a1, g1, h⟩ <;> rw [h]
  dsimp only
  rcases val (pyInt w2) with h | ⟨a2, g2, h⟩ <;> rw [h]
  dsimp only
  rcases val (pyInt w3) with h | ⟨a3, g3, h⟩ <;> rw [h]
  dsimp only
  rcases val (pyInt w4) with h | ⟨a4, g4, h⟩ <;> rw [h]
  dsimp only
  rcases val (pyInt w5) with h | ⟨a5, g5, h⟩ <;> rw [h]
  dsimp only
  rcases val (pyInt w6) with h | ⟨a6, g6, h⟩ <;> rw [h]
  dsimp only
  rcases val (pyFloat w7) with h | ⟨a7, g7, h⟩ <;> rw [h]
  dsimp only
  rcases val (pyInt w8) with h | ⟨a8, g8, h⟩ <;> rw [h]
  dsimp only
  rcases val (pyInt w9) with h | ⟨a9, g9, h⟩ <;> rw [h]
  dsimp only
  rcases val (pyInt w10) with h | ⟨a10, g10, h⟩ <;> rw [h]
  dsimp only
  exfalso
  rcases hb with ⟨w, hw, hn⟩ | hn
  · have hnone := ne w hn
    simp only [List.mem_cons, List.not_mem_nil, or_false] at hw
    rcases hw with rfl | rfl | rfl | rfl | rfl | rfl | rfl | rfl | rfl
    · rw [hnone] at g1; cases g1
    · rw [hnone] at g2; cases g2
    · rw [hnone] at g3; cases g3
    · rw [hnone] at g4; cases g4
    · rw [hnone] at g5; cases g5
    · rw [hnone] at g6; cases g6
    · rw [hnone] at g8; cases g8
    · rw [hnone] at g9; cases g9
    · rw [hnone] at g10; cases g10
  · rcases (C110_float _ _).mp g7 with ⟨neg, h, -⟩ | ⟨neg, h, -⟩ | ⟨neg, q, h, -⟩
    · exact hn ⟨neg, .inl h⟩
    · exact hn ⟨neg, h.elim (fun h => .inr (.inl h)) (fun h => .inr (.inr (.inl h)))⟩
    · exact hn ⟨neg, .inr (.inr (.inr ⟨q, h⟩))⟩

/-! ### Examples -/

/-- Words may be separated by any white space. -/
example : Words blank "#std\t4\r\n  6".toList ["#std".toList, ['4'], ['6']] := (splitT_iff _ _).mp (by decide +kernel)

example : (readHeader (encodeT "#std 4 6 6 1 1_2 12 -.5e1 0 +0 1 UP".toList)).toOption.map (fun h => (h.nbElems, h.time)) =
    some (12, Flt.ofRat true 5) := by decide +kernel

example : Words blank (decodeB ((encodeT "#std 4 6 6 1 12_ 12 0.5 0 0 1 UP".toList).take 132))
      (["#std", "4", "6", "6", "1", "12_", "12", "0.5", "0", "0", "1", "UP"].map String.toList) ∧
    ¬ ∃ i, IntWord "12_".toList i :=
  ⟨(splitT_iff _ _).mp (by decide +kernel), by
    rintro ⟨i, h⟩
    have := (C110_int _ _).mpr h
    exact absurd this (by simp only [show pyInt "12_".toList = none by decide]; simp)⟩

/-- `int("-1_024")` is −1024; doubled and trailing underscores are refused. -/
example : IntWord "-1_024".toList (-1024) ∧ pyInt "1__024".toList = none ∧ pyInt "1024_".toList = none ∧
    pyInt "_1".toList = none ∧ pyInt "+-1".toList = none ∧ pyInt "1.0".toList = none :=
  ⟨(C110_int _ _).mp (by decide), by decide, by decide, by decide, by decide, by decide⟩

/-- `float("-12.5e-1")` is −1.25. -/
example : DecWord "-12.5e-1".toList true (5 / 4) :=
  (decLit_iff _ _ _).mp ⟨⟨true, 125, -2⟩, by decide, rfl, by norm_num⟩

example : DecWord ".5".toList false (1 / 2) ∧ DecWord "3.".toList false 3 ∧ DecWord "2E3".toList false 2000 :=
  ⟨(decLit_iff _ _ _).mp ⟨⟨false, 5, -1⟩, by decide, rfl, by norm_num⟩,
    (decLit_iff _ _ _).mp ⟨⟨false, 3, 0⟩, by decide, rfl, by norm_num⟩,
    (decLit_iff _ _ _).mp ⟨⟨false, 2, 3⟩, by decide, rfl, by norm_num⟩⟩

example : Named "nan".toList "-NaN".toList true := ⟨['-'], "NaN".toList, rfl, .minus, by decide⟩

example : pyFloat ".".toList = none ∧ pyFloat "1e".toList = none ∧ pyFloat "e5".toList = none ∧ pyFloat "1.5.2".toList = none := by
  decide +kernel

end Pymech
