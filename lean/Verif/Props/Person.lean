import Verif.Model.Person
import Verif.Lemmas.Account
import Mathlib.Data.Prod.Lex
import Mathlib.Tactic.Linarith
import Mathlib.Tactic.NormNum

/-!
# Properties of `forecaster/person.py` (C37, C38, C51)
-/

set_option linter.unusedSectionVars false

namespace Forecaster.Person

open Forecaster Forecaster.Account

/-! ## C37: spouses -/

section Spouse

variable {P : Type} [DecidableEq P]

/-- Specification: being someone's spouse is mutual. -/
def Mutual (s : Couples P) : Prop := ∀ a b, s a = some b ↔ s b = some a

/-- Specification: the assignment does not choose somebody who is married to a third person and
assigns a person or `None`. -/
def Free (s : Couples P) (self : P) : SpouseArg P → Prop
  | .none => True
  | .person p => s p = none ∨ s p = some self
  | .other => False

/-- **C37.** What an assignment does: the two people point at each other afterwards, the former
spouse of `self` (if somebody else) is released, and nobody else is affected. -/
theorem C37_assignment (s : Couples P) (self p : P) :
    let s' := (setSpouse s self (.person p)).1
    s' self = some p ∧ s' p = some self ∧
      (∀ old, s self = some old → old ≠ self → old ≠ p → s' old = none) ∧
      (∀ q, q ≠ self → q ≠ p → s self ≠ some q → s' q = s q) := by
  simp only [setSpouse, put]
  refine ⟨by simp, ?_, ?_, ?_⟩
  · by_cases h : p = self
    · simp [h]
    · simp [h]
  · intro old h1 h2 h3
    simp [h1, h2, h3, put]
  · intro q h1 h2 h3
    rw [if_neg h1, if_neg h2]
    cases h : s self with
    | none => rfl
    | some old =>
      have : q ≠ old := by rintro rfl; exact h3 h
      simp [this, put]

/-- One assignment that is free keeps the relation mutual. -/
theorem mutual_step (s : Couples P) (h : Mutual s) (self : P) (v : SpouseArg P)
    (hf : Free s self v) : Mutual (setSpouse s self v).1 := by
  intro a b
  cases v with
  | other => exact hf.elim
  | none =>
    simp only [setSpouse, put]
    cases hs : s self with
    | none =>
      simp only
      have h1 : ∀ x, s x ≠ some self := fun x hx => by
        rw [h x self, hs] at hx; cases hx
      by_cases ha : a = self <;> by_cases hb : b = self
      · simp [ha, hb]
      · simp only [ha, if_true, hb, if_false]
        exact ⟨fun e => (by cases e), fun e => (h1 b e).elim⟩
      · simp only [hb, if_true, ha, if_false]
        exact ⟨fun e => (h1 a e).elim, fun e => by cases e⟩
      · simp only [ha, hb, if_false]; exact h a b
    | some old =>
      simp only [put]
      have h2 : s old = some self := (h self old).1 hs
      have key : ∀ x y, x ≠ self → x ≠ old → s x = some y → y ≠ self ∧ y ≠ old := by
        intro x y hx1 hx2 hxy
        have hyx := (h x y).1 hxy
        constructor
        · rintro rfl; rw [hs] at hyx; exact hx2 (Option.some.inj hyx).symm
        · rintro rfl; rw [h2] at hyx; exact hx1 (Option.some.inj hyx).symm
      have val : ∀ x, (if x = self then none else if x = old then none else s x)
          = if x = self ∨ x = old then none else s x := by
        intro x; by_cases h1 : x = self <;> by_cases h2 : x = old <;> simp [h1, h2]
      rw [val, val]
      by_cases ha : a = self ∨ a = old <;> by_cases hb : b = self ∨ b = old
      · simp [ha, hb]
      · rw [if_pos ha, if_neg hb]
        refine ⟨fun e => (by cases e), fun e => ?_⟩
        have := key b a (fun x => hb (Or.inl x)) (fun x => hb (Or.inr x)) e
        tauto
      · rw [if_neg ha, if_pos hb]
        refine ⟨fun e => ?_, fun e => by cases e⟩
        have := key a b (fun x => ha (Or.inl x)) (fun x => ha (Or.inr x)) e
        tauto
      · rw [if_neg ha, if_neg hb]; exact h a b
  | person p =>
    have hA := C37_assignment s self p
    simp only at hA
    obtain ⟨e1, e2, e3, e4⟩ := hA
    -- nobody but self and p points at self or p
    have out : ∀ x, x ≠ self → x ≠ p → ∀ y, (setSpouse s self (.person p)).1 x = some y →
        s x = some y ∧ y ≠ self ∧ y ≠ p ∧ s self ≠ some x := by
      intro x hx1 hx2 y hxy
      by_cases hold : s self = some x
      · rw [e3 x hold hx1 hx2] at hxy; cases hxy
      · rw [e4 x hx1 hx2 hold] at hxy
        refine ⟨hxy, ?_, ?_, hold⟩
        · rintro rfl; exact hold ((h x y).1 hxy)
        · rintro rfl
          have hp := (h x y).1 hxy
          rcases hf with hf | hf
          · rw [hf] at hp; cases hp
          · rw [hf] at hp; exact hx1 (Option.some.inj hp).symm
    by_cases ha : a = self
    · subst ha
      rw [e1]
      constructor
      · intro e; cases e; exact e2
      · intro e
        by_cases hb1 : b = p
        · rw [hb1]
        · by_cases hb2 : b = a
          · subst hb2; rw [e1] at e; exact e
          · exact absurd rfl (out b hb2 hb1 a e).2.1
    · by_cases ha2 : a = p
      · subst ha2
        rw [e2]
        constructor
        · intro e; cases e; exact e1
        · intro e
          by_cases hb1 : b = self
          · rw [hb1]
          · by_cases hb2 : b = a
            · subst hb2; rw [e2] at e; exact e
            · exact absurd rfl (out b hb1 hb2 a e).2.2.1
      · by_cases hb : b = self
        · subst hb
          constructor
          · intro e; exact absurd rfl (out a ha ha2 b e).2.1
          · intro e; rw [e1] at e; exact absurd (Option.some.inj e).symm ha2
        · by_cases hb2 : b = p
          · subst hb2
            constructor
            · intro e; exact absurd rfl (out a ha ha2 b e).2.2.1
            · intro e; rw [e2] at e; exact absurd (Option.some.inj e).symm ha
          · constructor
            · intro e
              obtain ⟨q1, -, -, q4⟩ := out a ha ha2 b e
              have hba := (h a b).1 q1
              have : s self ≠ some b := by
                intro hh
                rw [h self b] at hh
                rw [hba] at hh
                exact ha (Option.some.inj hh)
              rw [e4 b hb hb2 this]; exact hba
            · intro e
              obtain ⟨q1, -, -, q4⟩ := out b hb hb2 a e
              have hba := (h b a).1 q1
              have : s self ≠ some a := by
                intro hh
                rw [h self a] at hh
                rw [hba] at hh
                exact hb (Option.some.inj hh)
              rw [e4 a ha ha2 this]; exact hba

/-- Specification: every assignment of the sequence is free when it is made. -/
def AllFree (s : Couples P) : List (P × SpouseArg P) → Prop
  | [] => True
  | x :: l => Free s x.1 x.2 ∧ AllFree (setSpouse s x.1 x.2).1 l

/-- **C37.** Starting from nobody married, after any sequence of spouse assignments none
of which chooses somebody married to a third person, `a.spouse is b` iff `b.spouse is a`. Not covered:
assignments that do (`C37_third_party_left_dangling`), and rejected assignments
(`C37_rejected_assignment_breaks_couple`); there the claim is false. -/
theorem C37_mutual (l : List (P × SpouseArg P)) (h : AllFree (fun _ => none) l) :
    Mutual (marryAll (fun _ : P => none) l) := by
  have key : ∀ (l : List (P × SpouseArg P)) (s : Couples P), Mutual s → AllFree s l →
      Mutual (marryAll s l) := by
    intro l
    induction l with
    | nil => intro s hs _; exact hs
    | cons x l ih =>
      intro s hs hf
      exact ih _ (mutual_step s hs x.1 x.2 hf.1) hf.2
  exact key l _ (fun a b => ⟨fun e => (by cases e), fun e => by cases e⟩) h

example : AllFree (fun _ : Fin 4 => none)
    [(0, .person 1), (2, .person 3), (0, .none), (1, .person 0), (2, .none), (3, .person 3)] := by
  simp only [AllFree, Free, setSpouse, put]
  decide

/-- Marrying somebody who is married leaves the third person pointing at them: Ann and Bob are
married, then Cay marries Bob; now Ann's spouse is Bob but Bob's spouse is Cay. -/
theorem C37_third_party_left_dangling :
    ∃ l : List (Fin 3 × SpouseArg (Fin 3)),
      marryAll (fun _ => none) l 0 = some 1 ∧ marryAll (fun _ => none) l 1 = some 2 :=
  ⟨[(0, .person 1), (2, .person 1)], by decide⟩

/-- Assigning something that is not a `Person` raises `TypeError`, but only after the old spouse
has been released: `self` still points at the old spouse, who no longer points back. -/
theorem C37_rejected_assignment_breaks_couple (s : Couples P) (a b : P) (hab : a ≠ b)
    (h : s a = some b) :
    (setSpouse s a .other).2 = .error .typeError ∧
    (setSpouse s a .other).1 a = some b ∧ (setSpouse s a .other).1 b = none := by
  simp [setSpouse, put, h, hab]

end Spouse

/-! ## C38: age -/

/-- Specification: the `n`-th anniversary of `b`, as a (possibly only nominal) date. -/
def anniversary (b : Date) (n : ℤ) : Date := { b with year := b.year + n }

theorem before_irrefl (a : Date) : ¬ a.Before a := by
  rintro (h | ⟨-, h⟩)
  · exact lt_irrefl _ h
  · exact lt_irrefl _ h

theorem before_iff (a b : Date) : a.Before b ↔ toLex (a.year, a.rest) < toLex (b.year, b.rest) := by
  rw [Prod.Lex.toLex_lt_toLex]; rfl

theorem not_before (a b : Date) : ¬ a.Before b ↔ toLex (b.year, b.rest) ≤ toLex (a.year, a.rest) := by
  rw [before_iff, not_lt]

theorem age_eq {birth date : Date} {n : ℤ} (h : age birth date = .ok n) :
    n = date.year - birth.year - if date.rest < birth.rest then 1 else 0 := by
  unfold age Date.replaceYear at h
  split_ifs at h with h1
  · simp only [ok_bind, Except.ok.injEq] at h
    have : Date.Before { date with year := birth.year } birth ↔ date.rest < birth.rest := by
      unfold Date.Before
      simp [Date.rest]
    rw [← h]
    by_cases h2 : date.rest < birth.rest
    · rw [if_pos (this.2 h2), if_pos h2]
    · rw [if_neg (fun x => h2 (this.1 x)), if_neg h2]; ring
  · cases h

/-- **C38.** `age(date)` is the number of whole years lived: the date is on or after that
anniversary of the birth and before the next one. -/
theorem C38_age_whole_years (birth date : Date) (n : ℤ) (h : age birth date = .ok n) :
    ¬ date.Before (anniversary birth n) ∧ date.Before (anniversary birth (n + 1)) := by
  have e := age_eq h
  have r : ∀ m, (anniversary birth m).rest = birth.rest := fun _ => rfl
  simp only [Date.Before, r]
  simp only [anniversary]
  by_cases h2 : date.rest < birth.rest
  · rw [if_pos h2] at e
    refine ⟨?_, Or.inr ⟨by omega, h2⟩⟩
    rintro (h3 | ⟨h3, -⟩) <;> omega
  · rw [if_neg h2] at e
    refine ⟨?_, Or.inl (by omega)⟩
    rintro (h3 | ⟨-, h3⟩)
    · omega
    · exact h2 h3

/-- **C38.** `age` is defined for every real date except 29 February if the person was not born in
a leap year: there `ValueError` is raised (`date.replace` is not guarded, person.py:383). -/
theorem C38_age_defined_iff (birth date : Date) (hd : date.Valid) :
    (∃ n, age birth date = .ok n) ↔
      ¬ (date.month = 2 ∧ date.day = 29 ∧ leap birth.year = false) := by
  have hex : (∃ n, age birth date = .ok n) ↔ date.day ≤ daysIn birth.year date.month := by
    unfold age Date.replaceYear
    by_cases h : date.day ≤ daysIn birth.year date.month
    · simp [h]
    · simp [h]
  rw [hex]
  obtain ⟨-, -, -, h4⟩ := hd
  unfold daysIn at *
  by_cases hm : date.month = 2
  · rw [if_pos hm] at h4 ⊢
    cases hb : leap birth.year <;> cases hy : leap date.year <;> simp [hm, hy] at h4 ⊢ <;> omega
  · rw [if_neg hm] at h4 ⊢
    simp [hm, h4]

/-- **C38.** A later date never means a younger age. -/
theorem C38_age_monotone (birth d1 d2 : Date) (n1 n2 : ℤ) (h1 : age birth d1 = .ok n1)
    (h2 : age birth d2 = .ok n2) (h : ¬ d2.Before d1) : n1 ≤ n2 := by
  have e1 := age_eq h1
  have e2 := age_eq h2
  simp only [Date.Before, not_or, not_lt, not_and] at h
  obtain ⟨hy, hr⟩ := h
  by_cases hyy : d2.year = d1.year
  · have := hr hyy
    by_cases c2 : d2.rest < birth.rest
    · have c1 : d1.rest < birth.rest := lt_of_le_of_lt this c2
      rw [if_pos c1] at e1; rw [if_pos c2] at e2; omega
    · rw [if_neg c2] at e2
      split_ifs at e1 <;> omega
  · split_ifs at e1 e2 <;> omega

/-- **C38.** The age on the same day of the next year is one more. -/
theorem C38_age_next_year (birth d : Date) (n : ℤ) (h : age birth d = .ok n) :
    age birth { d with year := d.year + 1 } = .ok (n + 1) := by
  have e := age_eq h
  have hd : d.day ≤ daysIn birth.year d.month := by
    by_contra hc
    unfold age Date.replaceYear at h
    rw [if_neg hc] at h
    cases h
  have : ∃ m, age birth { d with year := d.year + 1 } = .ok m := by
    unfold age Date.replaceYear
    simp [hd]
  obtain ⟨m, hm⟩ := this
  have e' := age_eq hm
  rw [hm, e', e]
  have : Date.rest { d with year := d.year + 1 } = d.rest := rfl
  rw [this]
  congr 1
  simp only
  ring

/-- **C38.** `age(year)` for a person with a real birth date: the age reached in that year - except
that somebody born on 29 February is reported one year younger in every year that is not a leap
year (the year is parsed as 28 February). -/
theorem C38_age_in_year (birth : Date) (hb : birth.Valid) (y : ℤ) :
    ageInYear birth y = .ok (y - birth.year -
      if birth.month = 2 ∧ birth.day = 29 ∧ leap y = false then 1 else 0) := by
  obtain ⟨-, -, -, h4⟩ := hb
  have hfeb : ¬ (birth.month = 2 ∧ birth.day = 29 ∧ leap y = false) →
      birth.day ≤ daysIn y birth.month := by
    intro h
    unfold daysIn at h4 ⊢
    by_cases hm : birth.month = 2
    · rw [if_pos hm] at h4 ⊢
      cases hl : leap y <;> cases hl2 : leap birth.year <;> simp [hm, hl, hl2] at h h4 ⊢ <;> omega
    · rw [if_neg hm] at h4 ⊢; exact h4
  have hok : (birth.inYear y).day ≤ daysIn birth.year (birth.inYear y).month :=
    le_trans (min_le_left _ _) h4
  have hex : ∃ n, ageInYear birth y = .ok n := by
    unfold ageInYear age Date.replaceYear
    simp [hok]
  obtain ⟨n, hn⟩ := hex
  have e := age_eq (date := birth.inYear y) hn
  rw [hn, e]
  by_cases hf : birth.month = 2 ∧ birth.day = 29 ∧ leap y = false
  · have : (birth.inYear y).rest < birth.rest := by
      obtain ⟨f1, f2, f3⟩ := hf
      have : (birth.inYear y).day = 28 := by simp [Date.inYear, daysIn, f1, f2, f3]
      unfold Date.rest
      rw [this]
      have hmm : (birth.inYear y).month = birth.month := rfl
      rw [hmm, f2, Prod.Lex.toLex_lt_toLex]
      refine Or.inr ⟨rfl, ?_⟩
      rw [Prod.Lex.toLex_lt_toLex]
      exact Or.inl (by norm_num)
    rw [if_pos hf, if_pos this]
    rfl
  · have : (birth.inYear y).rest = birth.rest := by
      simp [Date.rest, Date.inYear, min_eq_left (hfeb hf)]
    rw [if_neg hf, this, if_neg (lt_irrefl _)]
    rfl

def leapling : Date := ⟨2000, 2, 29, 0⟩
example : leapling.Valid := by unfold Date.Valid; decide
/-- The first and the last day of a year exist, the days around them do not. -/
example (y : ℤ) (t : ℕ) : (Date.mk y 1 1 t).Valid ∧ (Date.mk y 12 31 t).Valid ∧
    ¬ (Date.mk y 1 0 t).Valid ∧ ¬ (Date.mk y 12 32 t).Valid ∧ ¬ (Date.mk y 0 31 t).Valid ∧
    ¬ (Date.mk y 13 1 t).Valid ∧ ¬ (Date.mk y 4 31 t).Valid := by
  simp [Date.Valid, daysIn]
example : ageInYear leapling 2018 = .ok 17 ∧ ageInYear leapling 2020 = .ok 20 := by decide
example : age ⟨2001, 5, 1, 0⟩ ⟨2024, 2, 29, 0⟩ = .error .valueError := by decide
example : age ⟨2001, 5, 1, 0⟩ ⟨2024, 4, 30, 0⟩ = .ok 22 ∧ age ⟨2001, 5, 1, 0⟩ ⟨2024, 5, 1, 0⟩ = .ok 23 := by
  decide

/-! ## C51: retirement date and age -/

/-- **C51.** Only a date on or after the birth is accepted as retirement date; `None` raises
`NotImplementedError`. -/
theorem C51_retirement_date (birth : Date) (val : Option Date) (d : Date) :
    (setRetirementDate birth val = .ok d ↔ val = some d ∧ ¬ d.Before birth) ∧
    (setRetirementDate birth none = .error .notImplementedError) := by
  refine ⟨?_, rfl⟩
  cases val with
  | none => simp [setRetirementDate]
  | some x =>
    simp only [setRetirementDate, Option.some.injEq]
    split_ifs with h
    · refine ⟨fun e => (by cases e), fun e => ?_⟩
      rw [e.1] at h
      exact (e.2 h).elim
    · exact ⟨fun e => (by cases e; exact ⟨rfl, h⟩), fun e => by rw [e.1]⟩

theorem inYear_rest_le (b : Date) (y : ℤ) : (b.inYear y).rest ≤ b.rest := by
  unfold Date.rest
  rw [Prod.Lex.toLex_le_toLex]
  refine Or.inr ⟨rfl, ?_⟩
  rw [Prod.Lex.toLex_le_toLex]
  simp only [Date.inYear]
  rcases lt_or_eq_of_le (min_le_left b.day (daysIn y b.month)) with h | h
  · exact Or.inl h
  · exact Or.inr ⟨h, le_rfl⟩

/-- **C51.** Setting `retirement_age = n` for any `n > 0` sets a retirement date in the year the
person turns `n`, and `retirement_age` then reads `n`. -/
theorem C51_retirement_age_round_trip (birth : Date) (n : ℤ) (hn : 0 < n) :
    ∃ d, setRetirementAge birth (some n) = .ok d ∧ d.year = birth.year + n ∧
      retirementAge birth d = n := by
  have h : ¬ (birth.inYear (birth.year + n)).Before birth := by
    rintro (h | ⟨h, -⟩) <;> simp only [Date.inYear] at h <;> omega
  refine ⟨birth.inYear (birth.year + n), by simp [setRetirementAge, setRetirementDate, h], rfl, ?_⟩
  have hy : (birth.inYear (birth.year + n)).year = birth.year + n := rfl
  unfold retirementAge
  rw [hy, if_neg (before_irrefl _)]
  ring

/-- **C51.** The same for `n = 0` and a real birth date. -/
theorem C51_retirement_age_zero (birth : Date) (hb : birth.Valid) :
    setRetirementAge birth (some 0) = .ok birth ∧ retirementAge birth birth = 0 := by
  have hin : birth.inYear birth.year = birth := by
    obtain ⟨-, -, -, h4⟩ := hb
    simp [Date.inYear, min_eq_left h4]
  constructor
  · simp [setRetirementAge, setRetirementDate, hin, before_irrefl]
  · simp [retirementAge, hin, before_irrefl]

/-- **C51.** A negative retirement age is rejected. -/
theorem C51_retirement_age_negative (birth : Date) (n : ℤ) (hn : n < 0) :
    setRetirementAge birth (some n) = .error .valueError := by
  have h : (birth.inYear (birth.year + n)).Before birth := Or.inl (by simp [Date.inYear]; omega)
  simp [setRetirementAge, setRetirementDate, h]

/-- **C51.** A retirement age never goes down when the retirement date moves later. -/
theorem C51_retirement_age_monotone (birth d1 d2 : Date) (h : ¬ d2.Before d1) :
    retirementAge birth d1 ≤ retirementAge birth d2 := by
  unfold retirementAge
  simp only [Date.Before, not_or, not_lt, not_and] at h
  obtain ⟨hy, hr⟩ := h
  by_cases hyy : d2.year = d1.year
  · have := hr hyy
    rw [hyy]
    by_cases c2 : d2.Before (birth.inYear d1.year)
    · have c1 : d1.Before (birth.inYear d1.year) := by
        rcases c2 with c | ⟨-, c⟩
        · simp [Date.inYear] at c; omega
        · exact Or.inr ⟨rfl, lt_of_le_of_lt this c⟩
      rw [if_pos c1, if_pos c2]
    · rw [if_neg c2]
      split_ifs <;> omega
  · split_ifs <;> omega

/-! ## C38: the calendar -/

/-- **C38.** Every fourth year is a leap year, except for the centuries that are no multiple of
400. -/
theorem C38_leap_years (y : ℤ) : leap y = true ↔ 4 ∣ y ∧ (100 ∣ y → 400 ∣ y) := by
  unfold leap
  simp only [decide_eq_true_eq]
  omega

/-- **C38.** The lengths of the months. -/
theorem C38_month_lengths (y : ℤ) :
    (List.range 12).map (fun m => daysIn y (m + 1)) =
      [31, if 4 ∣ y ∧ (100 ∣ y → 400 ∣ y) then 29 else 28, 31, 30, 31, 30, 31, 31, 30, 31, 30,
        31] := by
  have : daysIn y 2 = if 4 ∣ y ∧ (100 ∣ y → 400 ∣ y) then 29 else 28 := by
    simp only [daysIn, if_true]
    exact if_congr (C38_leap_years y) rfl rfl
  simp [List.range_succ, daysIn, C38_leap_years]

/-! ## C38: gross and net income -/

section Income

variable {K : Type} [Field K] [LinearOrder K] [IsStrictOrderedRing K]

/-- Specification: the income `n` years after the first: raised every year by that year's rate, and
0 in every year after the year of retirement. -/
def incomeAfter (r : ℤ → K) (retirementYear y0 : ℤ) (g0 : K) : ℕ → K
  | 0 => g0
  | n + 1 => if retirementYear < y0 + (n + 1 : ℕ) then 0
      else incomeAfter r retirementYear y0 g0 n * (1 + r (y0 + (n + 1 : ℕ)))

/-- Specification: what a raise rate given to the constructor says about year `y`: a number is the
raise of every year, `None` means no raises, a dict or a function gives each year's own raise. -/
def RaiseArg.Gives : RaiseArg K → ℤ → K → Prop
  | .none, _, v => v = 0
  | .scalar x, _, v => v = x
  | .dict d, y, v => Dict.get? d y = some v
  | .callable f, y, v => f y = .ok v

/-- A person whose raise in year `y` is `r y`, if it is known. -/
def HasRaises (p : Earner K) (r : ℤ → K) : Prop := ∀ y x, p.raise y = .ok x → x = some (r y)

structure EInv (r : ℤ → K) (ret : Date) (y0 : ℤ) (g0 : K) (p : Earner K) : Prop where
  raise : HasRaises p r
  retir : p.retirement = ret
  start : y0 ≤ p.year
  past : ∀ n : ℕ, y0 + n < p.year ∨ n = 0 →
    Dict.get? p.gross (y0 + n) = some (incomeAfter r ret.year y0 g0 n)
  cur : ∀ n : ℕ, p.year = y0 + n → ∀ g, Dict.get? p.gross p.year = some g →
    g = incomeAfter r ret.year y0 g0 n
  fut : ∀ y, p.year < y → Dict.get? p.gross y = none
  raises : ∀ x, Dict.get? p.raises p.year = some x → x = some (r p.year)
  futR : ∀ y, p.year < y → Dict.get? p.raises y = none
  futN : ∀ y, p.year < y → Dict.get? p.net y = none

theorem raiseRate_spec {r : ℤ → K} {ret : Date} {y0 : ℤ} {g0 : K} {p : Earner K}
    (h : EInv r ret y0 g0 p) {x : Option K} {p' : Earner K} (e : raiseRate p = .ok (x, p')) :
    x = some (r p.year) ∧ EInv r ret y0 g0 p' ∧ p'.year = p.year ∧
      p'.gross = p.gross ∧ p'.net = p.net ∧ p'.tax = p.tax := by
  unfold raiseRate at e
  rcases Option.eq_none_or_eq_some (Dict.get? p.raises p.year) with h0 | ⟨x', h0⟩
  · rw [h0] at e
    cases hr : p.raise p.year with
    | error er => simp only [hr] at e; cases e
    | ok z =>
      simp only [hr, ok_bind] at e
      cases e
      have hz := h.raise _ _ hr
      subst hz
      refine ⟨rfl, ⟨h.raise, h.retir, h.start, h.past, h.cur, h.fut, ?_, ?_, h.futN⟩, rfl, rfl, rfl, rfl⟩
      · intro x hx
        simp only [Dict.get?_set_self, Option.some.injEq] at hx
        exact hx.symm
      · intro y hy
        simp only at hy ⊢
        rw [Dict.get?_set_ne _ _ (by omega)]
        exact h.futR y hy
  · rw [h0] at e
    cases e
    exact ⟨h.raises _ h0, h, rfl, rfl, rfl, rfl⟩

theorem gross_set {r : ℤ → K} {ret : Date} {y0 : ℤ} {g0 : K} {p : Earner K}
    (h : EInv r ret y0 g0 p) {n : ℕ} (hn : p.year = y0 + n)
    (h0 : Dict.get? p.gross p.year = none) :
    EInv r ret y0 g0 { p with
      gross := Dict.set p.gross p.year (incomeAfter r ret.year y0 g0 n) } := by
  have hne : n ≠ 0 := by
    rintro rfl
    have := h.past 0 (Or.inr rfl)
    rw [← hn, h0] at this
    cases this
  refine ⟨h.raise, h.retir, h.start, ?_, ?_, ?_, h.raises, h.futR, h.futN⟩
  · intro m hm
    simp only at hm ⊢
    have hm' : y0 + (m : ℤ) ≠ p.year := by
      rcases hm with hm | hm
      · omega
      · subst hm; omega
    rw [Dict.get?_set_ne _ _ (Ne.symm hm')]
    exact h.past m hm
  · intro m hm g hg
    simp only at hm
    have : m = n := by omega
    subst this
    simp only [Dict.get?_set_self, Option.some.injEq] at hg
    exact hg.symm
  · intro y hy
    simp only at hy ⊢
    rw [Dict.get?_set_ne _ _ (by omega)]
    exact h.fut y hy

theorem grossIncome_spec {r : ℤ → K} {ret : Date} {y0 : ℤ} {g0 : K} {p : Earner K}
    (h : EInv r ret y0 g0 p) {n : ℕ} (hn : p.year = y0 + n) {g : K} {p' : Earner K}
    (eg : grossIncome p = .ok (g, p')) :
    g = incomeAfter r ret.year y0 g0 n ∧ EInv r ret y0 g0 p' ∧
      p'.year = p.year ∧ p'.net = p.net ∧ p'.tax = p.tax := by
  unfold grossIncome at eg
  rcases Option.eq_none_or_eq_some (Dict.get? p.gross p.year) with h0 | ⟨x, h0⟩
  · rw [h0] at eg
    simp only at eg
    cases n with
    | zero =>
      have := h.past 0 (Or.inr rfl)
      rw [← hn, h0] at this
      cases this
    | succ n =>
      have hret := h.retir
      rw [show p.retirement.year = ret.year by rw [hret]] at eg
      by_cases hr : ret.year < p.year
      · rw [if_pos hr] at eg
        have e : incomeAfter r ret.year y0 g0 (n + 1) = 0 := by
          simp only [incomeAfter]; rw [if_pos (by rw [← hn]; exact hr)]
        have := gross_set h hn h0
        rw [e] at this ⊢
        cases eg
        exact ⟨rfl, this, rfl, rfl, rfl⟩
      · rw [if_neg hr] at eg
        have hprev := h.past n (Or.inl (by rw [hn]; push_cast; omega))
        have hy : p.year - 1 = y0 + n := by rw [hn]; push_cast; ring
        simp only [look, hy, hprev, ok_bind] at eg
        cases e1 : raiseRate p with
        | error er => simp only [e1] at eg; cases eg
        | ok v =>
        obtain ⟨x, p1⟩ := v
        obtain ⟨hx, i1, y1, g1, n1, t1⟩ := raiseRate_spec h e1
        subst hx
        have e : incomeAfter r ret.year y0 g0 (n + 1)
            = incomeAfter r ret.year y0 g0 n * (1 + r p.year) := by
          simp only [incomeAfter]; rw [if_neg (by rw [← hn]; exact hr), ← hn]
        simp only [ok_bind, e1] at eg
        cases eg
        have := gross_set i1 (n := n + 1) (by rw [y1, hn]) (by rw [y1, g1]; exact h0)
        rw [e] at this ⊢
        have hp1 : ∀ z : K, { p1 with gross := Dict.set p1.gross p.year z }
            = { p1 with gross := Dict.set p1.gross p1.year z } := by intro z; rw [y1]
        rw [← hp1] at this
        exact ⟨rfl, this, y1, n1, t1⟩
  · rw [h0] at eg
    cases eg
    exact ⟨h.cur n hn _ h0, h, rfl, rfl, rfl⟩

theorem taxWithheld_spec {r : ℤ → K} {ret : Date} {y0 : ℤ} {g0 : K} {p : Earner K}
    (h : EInv r ret y0 g0 p) {n : ℕ} (hn : p.year = y0 + n) {x : K} {p' : Earner K}
    (e : taxWithheld p = .ok (x, p')) :
    EInv r ret y0 g0 p' ∧ p'.year = p.year ∧ p'.net = p.net ∧ p'.tax = p.tax ∧
      (match p.tax with
        | some t => t (incomeAfter r ret.year y0 g0 n) p.year = .ok x
        | none => x = 0) := by
  unfold taxWithheld at e
  cases ht : p.tax with
  | none => rw [ht] at e; cases e; exact ⟨h, rfl, rfl, ht ▸ rfl, rfl⟩
  | some t =>
    rw [ht] at e
    cases e1 : grossIncome p with
    | error er => simp only [e1] at e; cases e
    | ok v1 =>
    obtain ⟨g1, p1⟩ := v1
    obtain ⟨rfl, i1, y1, n1, t1⟩ := grossIncome_spec h hn e1
    simp only [e1, ok_bind] at e
    cases hx : t (incomeAfter r ret.year y0 g0 n) p.year with
    | error er => rw [hx] at e; cases e
    | ok v =>
      rw [hx, ok_bind] at e
      cases e
      exact ⟨i1, y1, n1, by rw [t1, ht], hx⟩

theorem grossIncome_cached {p p' : Earner K} {g : K} (e : grossIncome p = .ok (g, p')) :
    p'.year = p.year ∧ Dict.get? p'.gross p'.year = some g := by
  unfold grossIncome at e
  rcases Option.eq_none_or_eq_some (Dict.get? p.gross p.year) with h0 | ⟨x, h0⟩
  · rw [h0] at e
    simp only at e
    split_ifs at e with hr
    · cases e
      exact ⟨rfl, by simp⟩
    · cases h1 : look p.gross (p.year - 1) with
      | error er => rw [h1] at e; cases e
      | ok g0 =>
        rw [h1, ok_bind] at e
        cases h2 : raiseRate p with
        | error er => rw [h2] at e; cases e
        | ok v =>
          obtain ⟨x, p1⟩ := v
          have hy : p1.year = p.year := by
            unfold raiseRate at h2
            rcases Option.eq_none_or_eq_some (Dict.get? p.raises p.year) with h3 | ⟨z, h3⟩
            · rw [h3] at h2
              simp only at h2
              cases h4 : p.raise p.year with
              | error er => rw [h4] at h2; cases h2
              | ok w => rw [h4, ok_bind] at h2; cases h2; rfl
            · rw [h3] at h2; cases h2; rfl
          rw [h2, ok_bind] at e
          cases x with
          | none => cases e
          | some x =>
            cases e
            exact ⟨hy, by simp [hy]⟩
  · rw [h0] at e
    cases e
    exact ⟨rfl, h0⟩

theorem grossIncome_hit {p : Earner K} {g : K} (h : Dict.get? p.gross p.year = some g) :
    grossIncome p = .ok (g, p) := by simp [grossIncome, h]

theorem taxWithheld_gross {p p' : Earner K} {x g : K} (e : taxWithheld p = .ok (x, p'))
    (h : Dict.get? p.gross p.year = some g) : p' = p := by
  unfold taxWithheld at e
  cases ht : p.tax with
  | none => rw [ht] at e; cases e; rfl
  | some t =>
    rw [ht] at e
    simp only [grossIncome_hit h, ok_bind] at e
    cases hx : t g p.year with
    | error er => rw [hx] at e; cases e
    | ok v => rw [hx, ok_bind] at e; cases e; rfl

theorem netIncome_gross {p p' : Earner K} {x g : K} (e : netIncome p = .ok (x, p'))
    (h : Dict.get? p.gross p.year = some g) : Dict.get? p'.gross p'.year = some g := by
  unfold netIncome at e
  rcases Option.eq_none_or_eq_some (Dict.get? p.net p.year) with h0 | ⟨v, h0⟩
  · rw [h0] at e
    simp only [grossIncome_hit h, ok_bind] at e
    cases ht : taxWithheld p with
    | error er => rw [ht] at e; cases e
    | ok v =>
      obtain ⟨v, p2⟩ := v
      have := taxWithheld_gross ht h
      subst this
      rw [ht, ok_bind] at e
      cases e
      exact h
  · rw [h0] at e
    cases e
    exact h

theorem einv_net {r : ℤ → K} {ret : Date} {y0 : ℤ} {g0 : K} {p : Earner K}
    (h : EInv r ret y0 g0 p) {d : Dict ℤ K} (hd : ∀ y, p.year < y → Dict.get? d y = none) :
    EInv r ret y0 g0 { p with net := d } :=
  ⟨h.raise, h.retir, h.start, h.past, h.cur, h.fut, h.raises, h.futR, hd⟩

theorem netIncome_spec {r : ℤ → K} {ret : Date} {y0 : ℤ} {g0 : K} {p : Earner K}
    (h : EInv r ret y0 g0 p) {n : ℕ} (hn : p.year = y0 + n) {x : K} {p' : Earner K}
    (e : netIncome p = .ok (x, p')) : EInv r ret y0 g0 p' ∧ p'.year = p.year ∧ p'.tax = p.tax := by
  unfold netIncome at e
  rcases Option.eq_none_or_eq_some (Dict.get? p.net p.year) with h0 | ⟨v, h0⟩
  · rw [h0] at e
    cases e1 : grossIncome p with
    | error er => simp only [e1] at e; cases e
    | ok v1 =>
    obtain ⟨g1, p1⟩ := v1
    obtain ⟨rfl, i1, y1, n1, t1⟩ := grossIncome_spec h hn e1
    simp only [e1, ok_bind] at e
    cases ht : taxWithheld p1 with
    | error er => rw [ht] at e; cases e
    | ok v =>
      obtain ⟨v, p2⟩ := v
      obtain ⟨i2, y2, n2, t2, -⟩ := taxWithheld_spec i1 (by rw [y1]; exact hn) ht
      rw [ht, ok_bind] at e
      cases e
      exact ⟨einv_net i2 fun y hy => by
        rw [Dict.get?_set_ne _ _ (by omega)]; exact i2.futN y hy, by simp only; rw [y2, y1], by simp only; rw [t2, t1]⟩
  · rw [h0] at e
    cases e
    exact ⟨h, rfl, rfl⟩

theorem nextYear_spec {r : ℤ → K} {ret : Date} {y0 : ℤ} {g0 : K} {p p' : Earner K}
    (h : EInv r ret y0 g0 p) (e : p.nextYear = .ok p') :
    EInv r ret y0 g0 p' ∧ p'.year = p.year + 1 := by
  obtain ⟨n, hn⟩ : ∃ n : ℕ, p.year = y0 + n := ⟨(p.year - y0).toNat, by have := h.start; omega⟩
  unfold Earner.nextYear at e
  cases e1 : raiseRate p with
  | error er => simp only [e1] at e; cases e
  | ok v1 =>
  obtain ⟨x1, p1⟩ := v1
  obtain ⟨rfl, i1, y1, g1, n1, t1⟩ := raiseRate_spec h e1
  simp only [e1, ok_bind] at e
  cases e2 : grossIncome p1 with
  | error er => simp only [e2] at e; cases e
  | ok v2 =>
  obtain ⟨x2, p2⟩ := v2
  obtain ⟨rfl, i2, y2, n2, t2⟩ := grossIncome_spec i1 (by rw [y1]; exact hn) e2
  simp only [e2, ok_bind] at e
  cases hnet : netIncome p2 with
  | error er => rw [hnet] at e; cases e
  | ok v =>
    obtain ⟨v, p3⟩ := v
    obtain ⟨i3, y3, -⟩ := netIncome_spec i2 (by rw [y2, y1]; exact hn) hnet
    have hg2 := (grossIncome_cached e2).2
    have hg3 : Dict.get? p3.gross p3.year = some (incomeAfter r ret.year y0 g0 n) :=
      netIncome_gross hnet hg2
    rw [hnet, ok_bind] at e
    cases e
    have hy3 : p3.year = p.year := by rw [y3, y2, y1]
    refine ⟨⟨i3.raise, i3.retir, ?_, ?_, ?_, ?_, ?_, ?_, fun y hy => i3.futN y ?_⟩, rfl⟩
    · have := h.start; simp only; omega
    · intro m hm
      simp only at hm ⊢
      by_cases hmn : m = n
      · subst hmn; rw [← hn, ← hy3]; exact hg3
      · exact i3.past m (by omega)
    · intro m hm g hg
      simp only at hg
      rw [i3.fut _ (by omega)] at hg
      cases hg
    · intro y hy; simp only at hy ⊢; exact i3.fut y (by omega)
    · intro x hx
      simp only at hx
      rw [i3.futR _ (by omega)] at hx
      cases hx
    · intro y hy; simp only at hy ⊢; exact i3.futR y (by omega)
    · simp only at hy; omega

theorem einv_run {r : ℤ → K} {ret : Date} {y0 : ℤ} {g0 : K} {p : Earner K}
    (h : EInv r ret y0 g0 p) (ops : List Op) :
    EInv r ret y0 g0 (run p ops) ∧ (run p ops).tax = p.tax := by
  unfold run
  induction ops generalizing p with
  | nil => exact ⟨h, rfl⟩
  | cons op ops ih =>
    rw [List.foldl_cons]
    obtain ⟨n, hn⟩ : ∃ n : ℕ, p.year = y0 + n := ⟨(p.year - y0).toNat, by have := h.start; omega⟩
    cases hs : step p op with
    | error e => exact ih h
    | ok p' =>
      have key : EInv r ret y0 g0 p' ∧ p'.tax = p.tax := by
        cases op with
        | readGross =>
          cases e1 : grossIncome p with
          | error er => simp only [step, e1] at hs; cases hs
          | ok v1 =>
          obtain ⟨g1, p1⟩ := v1
          obtain ⟨rfl, i1, -, -, t1⟩ := grossIncome_spec h hn e1
          simp only [step, e1, ok_bind, Except.ok.injEq] at hs
          subst hs
          exact ⟨i1, t1⟩
        | readRaise =>
          cases e1 : raiseRate p with
          | error er => simp only [step, e1] at hs; cases hs
          | ok v1 =>
          obtain ⟨x1, p1⟩ := v1
          obtain ⟨rfl, i1, -, -, -, t1⟩ := raiseRate_spec h e1
          simp only [step, e1, ok_bind, Except.ok.injEq] at hs
          subst hs
          exact ⟨i1, t1⟩
        | readNet =>
          simp only [step] at hs
          cases hnet : netIncome p with
          | error er => rw [hnet] at hs; cases hs
          | ok v =>
            obtain ⟨v, p3⟩ := v
            rw [hnet, ok_bind] at hs
            cases hs
            obtain ⟨i, -, t⟩ := netIncome_spec h hn hnet
            exact ⟨i, t⟩
        | nextYear =>
          refine ⟨(nextYear_spec h hs).1, ?_⟩
          simp only [step, Earner.nextYear] at hs
          cases e1 : raiseRate p with
          | error er => simp only [e1] at hs; cases hs
          | ok v1 =>
          obtain ⟨x1, p1⟩ := v1
          obtain ⟨rfl, i1, y1, -, -, t1⟩ := raiseRate_spec h e1
          simp only [e1, ok_bind] at hs
          cases e2 : grossIncome p1 with
          | error er => simp only [e2] at hs; cases hs
          | ok v2 =>
          obtain ⟨x2, p2⟩ := v2
          obtain ⟨rfl, i2, y2, -, t2⟩ := grossIncome_spec i1 (by rw [y1]; exact hn) e2
          simp only [e2, ok_bind] at hs
          cases hnet : netIncome p2 with
          | error er => rw [hnet] at hs; cases hs
          | ok v =>
            obtain ⟨v, p3⟩ := v
            obtain ⟨-, -, t3⟩ := netIncome_spec i2 (by rw [y2, y1]; exact hn) hnet
            rw [hnet, ok_bind] at hs
            cases hs
            simp only
            rw [t3, t2, t1]
      have := ih key.1
      exact ⟨this.1, this.2.trans key.2⟩

theorem einv_init {y0 : ℤ} {ret : Date} {ra : RaiseArg K} {tax : Option (K → ℤ → Except PyErr K)}
    {g0 : K} {p : Earner K} (e : Earner.init y0 ret ra tax g0 = .ok p) {r : ℤ → K}
    (hr : HasRaises p r) : EInv r ret y0 g0 p ∧ p.year = y0 ∧ p.tax = tax := by
  unfold Earner.init at e
  simp only at e
  generalize hq : (⟨y0, ret, raiseCallable ra.orZero, tax, [(y0, g0)], [], []⟩ : Earner K) = q at e
  have hg : Dict.get? q.gross q.year = some g0 := by subst hq; simp [Dict.get?_cons]
  cases ht : taxWithheld q with
  | error er => rw [ht] at e; cases e
  | ok v =>
    obtain ⟨x, q'⟩ := v
    have := taxWithheld_gross ht hg
    subst this
    rw [ht, ok_bind] at e
    cases e
    subst hq
    refine ⟨⟨hr, rfl, le_rfl, ?_, ?_, ?_, ?_, ?_, ?_⟩, rfl, rfl⟩
    · intro n hn
      have : n = 0 := by simp only at hn; omega
      subst this
      simp [Dict.get?_cons, incomeAfter]
    · intro n hn g h
      have : n = 0 := by simp only at hn; omega
      subst this
      simp only [Dict.get?_cons, if_true, Option.some.injEq] at h
      exact h.symm
    · intro y hy
      simp only at hy
      simp [Dict.get?_cons, hy.ne]
    · intro x hx; simp at hx
    · intro y _; simp
    · intro y hy
      simp only at hy
      simp [Dict.get?_cons, hy.ne]

theorem raise_raiseRate {p p' : Earner K} {x : Option K} (e : raiseRate p = .ok (x, p')) :
    p'.raise = p.raise := by
  unfold raiseRate at e
  cases h0 : Dict.get? p.raises p.year with
  | none =>
    simp only [h0] at e
    cases h1 : p.raise p.year with
    | error er => rw [h1] at e; cases e
    | ok v => rw [h1, ok_bind] at e; cases e; rfl
  | some v => simp only [h0] at e; cases e; rfl

theorem raise_grossIncome {p p' : Earner K} {x : K} (e : grossIncome p = .ok (x, p')) :
    p'.raise = p.raise := by
  unfold grossIncome at e
  cases h0 : Dict.get? p.gross p.year with
  | none =>
    simp only [h0] at e
    split_ifs at e with hr
    · cases e; rfl
    · cases h1 : look p.gross (p.year - 1) with
      | error er => rw [h1] at e; cases e
      | ok g0 =>
        rw [h1, ok_bind] at e
        cases h2 : raiseRate p with
        | error er => rw [h2] at e; cases e
        | ok v =>
          obtain ⟨z, p1⟩ := v
          rw [h2, ok_bind] at e
          cases z with
          | none => cases e
          | some z => cases e; have := raise_raiseRate h2; exact this
  | some v => simp only [h0] at e; cases e; rfl

theorem raise_taxWithheld {p p' : Earner K} {x : K} (e : taxWithheld p = .ok (x, p')) :
    p'.raise = p.raise := by
  unfold taxWithheld at e
  cases ht : p.tax with
  | none => simp only [ht] at e; cases e; rfl
  | some t =>
    simp only [ht] at e
    cases h1 : grossIncome p with
    | error er => rw [h1] at e; cases e
    | ok v =>
      obtain ⟨g, p1⟩ := v
      simp only [h1, ok_bind] at e
      cases h2 : t g p.year with
      | error er => rw [h2] at e; cases e
      | ok w => rw [h2, ok_bind] at e; cases e; exact raise_grossIncome h1

theorem raise_netIncome {p p' : Earner K} {x : K} (e : netIncome p = .ok (x, p')) :
    p'.raise = p.raise := by
  unfold netIncome at e
  cases h0 : Dict.get? p.net p.year with
  | none =>
    simp only [h0] at e
    cases h1 : grossIncome p with
    | error er => rw [h1] at e; cases e
    | ok v =>
      obtain ⟨g, p1⟩ := v
      simp only [h1, ok_bind] at e
      cases h2 : taxWithheld p1 with
      | error er => rw [h2] at e; cases e
      | ok w =>
        obtain ⟨w, p2⟩ := w
        rw [h2, ok_bind] at e
        cases e
        exact (raise_taxWithheld h2).trans (raise_grossIncome h1)
  | some v => simp only [h0] at e; cases e; rfl

theorem raise_step {p p' : Earner K} {op : Op} (e : step p op = .ok p') : p'.raise = p.raise := by
  cases op with
  | readGross =>
    simp only [step] at e
    cases h1 : grossIncome p with
    | error er => rw [h1] at e; cases e
    | ok v => rw [h1, ok_bind] at e; cases e; exact raise_grossIncome (x := v.1) h1
  | readNet =>
    simp only [step] at e
    cases h1 : netIncome p with
    | error er => rw [h1] at e; cases e
    | ok v => rw [h1, ok_bind] at e; cases e; exact raise_netIncome (x := v.1) h1
  | readRaise =>
    simp only [step] at e
    cases h1 : raiseRate p with
    | error er => rw [h1] at e; cases e
    | ok v => rw [h1, ok_bind] at e; cases e; exact raise_raiseRate (x := v.1) h1
  | nextYear =>
    simp only [step, Earner.nextYear] at e
    cases h1 : raiseRate p with
    | error er => rw [h1] at e; cases e
    | ok v =>
      rw [h1, ok_bind] at e
      cases h2 : grossIncome v.2 with
      | error er => rw [h2] at e; cases e
      | ok w =>
        rw [h2, ok_bind] at e
        cases h3 : netIncome w.2 with
        | error er => rw [h3] at e; cases e
        | ok u =>
          rw [h3, ok_bind] at e
          cases e
          exact (raise_netIncome (x := u.1) h3).trans
            ((raise_grossIncome (x := w.1) h2).trans (raise_raiseRate (x := v.1) h1))

theorem run_raise (p : Earner K) (ops : List Op) : (run p ops).raise = p.raise := by
  unfold run
  induction ops generalizing p with
  | nil => rfl
  | cons op ops ih =>
    rw [List.foldl_cons]
    cases hs : step p op with
    | error e => exact ih p
    | ok p' => exact (ih p').trans (raise_step hs)

theorem init_raise {y0 : ℤ} {ret : Date} {ra : RaiseArg K}
    {tax : Option (K → ℤ → Except PyErr K)} {g0 : K} {p : Earner K}
    (e : Earner.init y0 ret ra tax g0 = .ok p) : p.raise = raiseCallable ra.orZero := by
  unfold Earner.init at e
  simp only at e
  generalize hq : (⟨y0, ret, raiseCallable ra.orZero, tax, [(y0, g0)], [], []⟩ : Earner K) = q at e
  have hg : Dict.get? q.gross q.year = some g0 := by subst hq; simp [Dict.get?_cons]
  cases ht : taxWithheld q with
  | error er => rw [ht] at e; cases e
  | ok v =>
    obtain ⟨x, q'⟩ := v
    have := taxWithheld_gross ht hg
    subst this
    rw [ht, ok_bind] at e
    cases e
    subst hq
    rfl

theorem raiseCallable_ok (ra : RaiseArg K) (y : ℤ) (x : Option K) :
    raiseCallable ra.orZero y = .ok x ↔ ∃ v, x = some v ∧ ra.Gives y v := by
  cases ra with
  | none => simp [RaiseArg.orZero, raiseCallable, RaiseArg.Gives, eq_comm]
  | scalar z => simp [RaiseArg.orZero, raiseCallable, RaiseArg.Gives, eq_comm]
  | dict d =>
    simp only [RaiseArg.orZero, raiseCallable, RaiseArg.Gives, look]
    cases Dict.get? d y <;> simp [bind, Except.bind, eq_comm]
  | callable f =>
    simp only [RaiseArg.orZero, raiseCallable, RaiseArg.Gives]
    cases f y <;> simp [bind, Except.bind, eq_comm]

theorem hasRaises_init {y0 : ℤ} {ret : Date} {ra : RaiseArg K}
    {tax : Option (K → ℤ → Except PyErr K)} {g0 : K} {p : Earner K}
    (e : Earner.init y0 ret ra tax g0 = .ok p) {r : ℤ → K} (hr : ∀ y v, ra.Gives y v → v = r y) :
    HasRaises p r := by
  intro y x hx
  rw [init_raise e, raiseCallable_ok] at hx
  obtain ⟨v, rfl, hv⟩ := hx
  rw [hr y v hv]

/-- **C38, gross income.** Whatever is read or advanced in whatever order, whenever the gross income
in the `n`-th year after the first can be read, it is `incomeAfter ... n`: raised every year, 0
after retirement. -/
theorem C38_gross_income (y0 : ℤ) (ret : Date) (ra : RaiseArg K)
    (tax : Option (K → ℤ → Except PyErr K)) (g0 : K) (p : Earner K)
    (hp : Earner.init y0 ret ra tax g0 = .ok p) (r : ℤ → K) (hr : ∀ y v, ra.Gives y v → v = r y)
    (ops : List Op) (n : ℕ) (hn : (run p ops).year = y0 + n) (g : K) (p' : Earner K)
    (e : grossIncome (run p ops) = .ok (g, p')) :
    g = incomeAfter r ret.year y0 g0 n := by
  obtain ⟨h, -, -⟩ := einv_init hp (hasRaises_init hp hr)
  exact (grossIncome_spec (einv_run h ops).1 hn e).1

/-- **C38.** The gross income of a year can be read if that year's raise is known, or the person is
retired by then. -/
theorem C38_gross_income_readable (y0 : ℤ) (ret : Date) (ra : RaiseArg K)
    (tax : Option (K → ℤ → Except PyErr K)) (g0 : K) (p : Earner K)
    (hp : Earner.init y0 ret ra tax g0 = .ok p) (r : ℤ → K) (hr : ∀ y v, ra.Gives y v → v = r y)
    (ops : List Op)
    (hy : (∃ v, ra.Gives (run p ops).year v) ∨ ret.year < (run p ops).year) :
    ∃ g p', grossIncome (run p ops) = .ok (g, p') := by
  obtain ⟨h, -, -⟩ := einv_init hp (hasRaises_init hp hr)
  have hi := (einv_run h ops).1
  have hra : (run p ops).raise = p.raise := run_raise p ops
  generalize run p ops = q at hi hra hy
  obtain ⟨n, hn⟩ : ∃ n : ℕ, q.year = y0 + n := ⟨(q.year - y0).toNat, by have := hi.start; omega⟩
  unfold grossIncome
  rcases Option.eq_none_or_eq_some (Dict.get? q.gross q.year) with h0 | ⟨x, h0⟩
  · rw [h0]
    simp only
    rw [hi.retir]
    by_cases hret : ret.year < q.year
    · rw [if_pos hret]; exact ⟨_, _, rfl⟩
    · rw [if_neg hret]
      obtain ⟨v, hv⟩ := hy.resolve_right hret
      have hn0 : n ≠ 0 := by
        rintro rfl
        have := hi.past 0 (Or.inr rfl)
        rw [← hn, h0] at this
        cases this
      have hprev := hi.past (n - 1) (Or.inl (by omega))
      have hy1 : q.year - 1 = y0 + ((n - 1 : ℕ) : ℤ) := by omega
      have hraise : q.raise q.year = .ok (some v) := by
        rw [hra, init_raise hp, raiseCallable_ok]; exact ⟨v, rfl, hv⟩
      simp only [look, hy1, hprev, ok_bind]
      unfold raiseRate
      rcases Option.eq_none_or_eq_some (Dict.get? q.raises q.year) with h1 | ⟨x, h1⟩
      · simp only [h1, hraise, ok_bind]
        exact ⟨_, _, rfl⟩
      · have := hi.raises x h1
        subst this
        simp only [h1, ok_bind]
        exact ⟨_, _, rfl⟩
  · rw [h0]; exact ⟨_, _, rfl⟩

/-- **C38.** The closed form while working: the first income times all the raises since. -/
theorem C38_income_while_working (r : ℤ → K) (ry y0 : ℤ) (g0 : K) (n : ℕ) (h : y0 + n ≤ ry) :
    incomeAfter r ry y0 g0 n
      = g0 * ((List.range n).map fun (i : ℕ) => 1 + r (y0 + (i + 1 : ℕ))).prod := by
  induction n with
  | zero => simp [incomeAfter]
  | succ n ih =>
    have h' : y0 + (n : ℤ) ≤ ry := by push_cast at h; omega
    simp only [incomeAfter]
    rw [if_neg (by omega), ih h', List.range_succ, List.map_append, List.prod_append]
    simp only [List.map_cons, List.map_nil, List.prod_cons, List.prod_nil, mul_one]
    ring

/-- **C38.** No income in any year after the year of retirement (other than the first year, for
which the given income is taken at face value). -/
theorem C38_no_income_after_retirement (r : ℤ → K) (ry y0 : ℤ) (g0 : K) (n : ℕ) (hn : 0 < n)
    (h : ry < y0 + n) : incomeAfter r ry y0 g0 n = 0 := by
  cases n with
  | zero => omega
  | succ n => simp only [incomeAfter]; rw [if_pos h]

/-- **C38, net income** in a new year is gross income less the tax withheld on it (nothing without
a tax treatment). -/
theorem C38_net_income (y0 : ℤ) (ret : Date) (ra : RaiseArg K)
    (tax : Option (K → ℤ → Except PyErr K)) (g0 : K) (p : Earner K)
    (hp : Earner.init y0 ret ra tax g0 = .ok p) (r : ℤ → K) (hr : ∀ y v, ra.Gives y v → v = r y)
    (ops : List Op)
    (p1 : Earner K) (hnext : (run p ops).nextYear = .ok p1) (n : ℕ) (hn : p1.year = y0 + n)
    (x : K) (p2 : Earner K)
    (e : netIncome p1 = .ok (x, p2)) :
    match tax with
    | some t => ∃ v, t (incomeAfter r ret.year y0 g0 n) p1.year = .ok v ∧
        x = incomeAfter r ret.year y0 g0 n - v
    | none => x = incomeAfter r ret.year y0 g0 n := by
  obtain ⟨h, -, ht⟩ := einv_init hp (hasRaises_init hp hr)
  have hrun := einv_run h (ops ++ [.nextYear])
  have happ : run p (ops ++ [.nextYear])
      = match step (run p ops) .nextYear with | .ok p' => p' | .error _ => run p ops := by
    unfold run
    rw [List.foldl_append]
    rfl
  have e1 : run p (ops ++ [.nextYear]) = p1 := by
    rw [happ]
    show (match (run p ops).nextYear with | .ok p' => p' | .error _ => run p ops) = p1
    rw [hnext]
  rw [e1, ht] at hrun
  obtain ⟨i, ht⟩ := hrun
  have hy1 := (nextYear_spec (einv_run h ops).1 hnext).2
  have hfresh : Dict.get? p1.net p1.year = none := by
    obtain ⟨q, hq, hq1⟩ : ∃ q, EInv r ret y0 g0 q ∧ q.net = p1.net ∧ q.year + 1 = p1.year := by
      have hi := (einv_run h ops).1
      generalize run p ops = s at hi hnext hy1
      obtain ⟨m, hm⟩ : ∃ m : ℕ, s.year = y0 + m := ⟨(s.year - y0).toNat, by have := hi.start; omega⟩
      unfold Earner.nextYear at hnext
      cases e1 : raiseRate s with
      | error er => simp only [e1] at hnext; cases hnext
      | ok v1 =>
      obtain ⟨x1, s1⟩ := v1
      obtain ⟨rfl, j1, z1, -⟩ := raiseRate_spec hi e1
      simp only [e1, ok_bind] at hnext
      cases e2 : grossIncome s1 with
      | error er => simp only [e2] at hnext; cases hnext
      | ok v2 =>
      obtain ⟨x2, s2⟩ := v2
      obtain ⟨rfl, j2, z2, -⟩ := grossIncome_spec j1 (by rw [z1]; exact hm) e2
      simp only [e2, ok_bind] at hnext
      cases hnet : netIncome s2 with
      | error er => rw [hnet] at hnext; cases hnext
      | ok v =>
        obtain ⟨v, s3⟩ := v
        obtain ⟨j3, z3, -⟩ := netIncome_spec j2 (by rw [z2, z1]; exact hm) hnet
        rw [hnet, ok_bind] at hnext
        cases hnext
        exact ⟨s3, j3, rfl, by simp only; rw [z3, z2, z1]⟩
    rw [← hq1.1]
    exact hq.futN _ (by omega)
  unfold netIncome at e
  rw [hfresh] at e
  cases e3 : grossIncome p1 with
  | error er => simp only [e3] at e; cases e
  | ok v3 =>
  obtain ⟨x3, p3⟩ := v3
  obtain ⟨rfl, i3, y3, -, t3⟩ := grossIncome_spec i hn e3
  simp only [e3, ok_bind] at e
  cases hw : taxWithheld p3 with
  | error er => rw [hw] at e; cases e
  | ok v =>
    obtain ⟨v, p4⟩ := v
    obtain ⟨-, -, -, -, hm⟩ := taxWithheld_spec i3 (by rw [y3]; exact hn) hw
    rw [hw, ok_bind] at e
    cases e
    rw [t3, ht, y3] at hm
    cases tax with
    | none => simp only at hm ⊢; rw [hm]; ring
    | some t => exact ⟨v, hm, rfl⟩

/-- **C38, the first year's take-home pay is settled at construction**: it is the gross income less
what the tax treatment given to the constructor withholds, and a tax treatment, retirement date or
raise assigned afterwards does not change what `net_income` says of that year. -/
theorem C38_first_net_income_settled (y0 : ℤ) (ret : Date) (ra : RaiseArg K)
    (tax : Option (K → ℤ → Except PyErr K)) (g0 : K) (p : Earner K)
    (hp : Earner.init y0 ret ra tax g0 = .ok p)
    (ret' : Date) (ra' : RaiseArg K) (tax' : Option (K → ℤ → Except PyErr K)) :
    ∃ x q, netIncome (setRaise { p with retirement := ret', tax := tax' } ra') = .ok (x, q) ∧
      (∀ t, tax = some t → ∃ v, t g0 y0 = .ok v ∧ x = g0 - v) ∧ (tax = none → x = g0) := by
  unfold Earner.init at hp
  simp only at hp
  generalize hq : (⟨y0, ret, raiseCallable ra.orZero, tax, [(y0, g0)], [], []⟩ : Earner K) = q at hp
  have hg : Dict.get? q.gross q.year = some g0 := by subst hq; simp [Dict.get?_cons]
  cases ht : taxWithheld q with
  | error er => rw [ht] at hp; cases hp
  | ok v =>
    obtain ⟨x, q'⟩ := v
    have := taxWithheld_gross ht hg
    subst this
    rw [ht, ok_bind] at hp
    cases hp
    subst hq
    refine ⟨g0 - x, _, by simp [netIncome, setRaise, Dict.get?_cons]; rfl, ?_⟩
    cases tax with
    | none =>
      simp only [taxWithheld] at ht
      cases ht
      exact ⟨fun t h => (by cases h), fun _ => sub_zero _⟩
    | some t =>
      simp only [taxWithheld, grossIncome, hg, ok_bind] at ht
      refine ⟨fun t' h => ?_, fun h => (by cases h)⟩
      cases h
      cases h1 : t g0 y0 with
      | error er => rw [h1] at ht; cases ht
      | ok w => rw [h1] at ht; cases ht; exact ⟨_, rfl, rfl⟩

/-- C38: 100 earned, a quarter withheld; a treatment that withholds everything comes too late. -/
example : ((do
    let p ← Earner.init 2000 ⟨2002, 6, 1, 0⟩ (.scalar (1 / 10)) (some fun g _ => .ok (g / 4)) 100
    let r ← netIncome { p with tax := some fun g _ => .ok g }
    .ok r.1 : Except PyErr ℚ)).toOption = some 75 := by decide +kernel

/-- Setting `raise_rate_callable = None` is documented to mean a rate of 0, but next year's income
then raises `TypeError`. -/
theorem C38_raise_none_breaks (p : Earner K) (g : K) (h0 : Dict.get? p.gross p.year = none)
    (hg : Dict.get? p.gross (p.year - 1) = some g) (hr : Dict.get? p.raises p.year = none)
    (hw : p.year ≤ p.retirement.year) :
    grossIncome (setRaise p .none) = .error .typeError := by
  simp [grossIncome, setRaise, h0, not_lt.2 hw, look, hg, raiseRate, hr, raiseCallable]

/-- A person who starts at 100 in 2000 with 10% raises and retires in 2002. -/
def sampleEarner : Except PyErr (Earner ℚ) :=
  Earner.init 2000 ⟨2002, 6, 1, 0⟩ (.scalar (1 / 10)) (some fun g _ => .ok (g / 4)) 100

example : (do
    let p ← sampleEarner
    let p ← p.nextYear
    let p ← p.nextYear
    let g ← grossIncome p
    let n ← netIncome g.2
    let p ← n.2.nextYear
    let g3 ← grossIncome p
    .ok (g.1, n.1, g3.1)) = (.ok (121, 363 / 4, 0) : Except PyErr (ℚ × ℚ × ℚ)) := by decide +kernel

end Income

end Forecaster.Person
