import Verif.Model.Profile
import Verif.Props.Person
import Mathlib.Algebra.Order.Ring.Rat

/-!
# C108: a person's dates and tax treatment after any assignments, and the constructor
-/

namespace Forecaster.Person

open Forecaster Forecaster.Account

/-! ## Assignments -/

section Assignments

variable {T : Type}

/-- **C108.** Assigning a birth date always works and changes nothing else. -/
theorem C108_birth_date (p : Profile T) (a : DateArg) :
    (assign p (.birth a)).2 = .ok () ∧ (assign p (.birth a)).1.birth = birthOf a ∧
    (assign p (.birth a)).1.retirement = p.retirement ∧
    (assign p (.birth a)).1.treatment = p.treatment ∧
    (∀ d, birthOf (.date d) = d) ∧ (∀ y, birthOf (.year y) = ⟨y, 1, 1, 0⟩) :=
  ⟨rfl, rfl, rfl, rfl, fun _ => rfl, fun _ => rfl⟩

/-- **C108.** Assigning a retirement date works exactly when it is not before the birth; it is
then what is read, and otherwise everything is as it was. -/
theorem C108_retirement_date (p : Profile T) (d : Date) :
    (¬ d.Before p.birth →
      assign p (.retirement (some (.date d))) =
        (⟨p.birth, some d, p.treatment⟩, .ok ())) ∧
    (d.Before p.birth →
      assign p (.retirement (some (.date d))) = (p, .error .valueError)) := by
  constructor
  · intro h
    simp [assign, assignRetirement, retirementOf, h]
  · intro h
    simp [assign, assignRetirement, retirementOf, h]

/-- The anniversary in a year is not before the birth, if the year is not. -/
theorem inYear_not_before (b : Date) (hb : b.Valid) (y : ℤ) (h : b.year ≤ y) :
    ¬ (b.inYear y).Before b := by
  rcases lt_or_eq_of_le h with h | h
  · rintro (c | ⟨c, -⟩) <;> simp only [Date.inYear] at c <;> omega
  · have : b.inYear y = b := by
      obtain ⟨-, -, -, h4⟩ := hb
      subst h
      simp [Date.inYear, min_eq_left h4]
    rw [this]
    exact before_irrefl b

/-- **C108.** A retirement year: accepted exactly from the year of birth on, and the retirement age
is then the difference of the years. -/
theorem C108_retirement_year (p : Profile T) (hb : p.birth.Valid) (y : ℤ) :
    (p.birth.year ≤ y →
      ∃ d, assign p (.retirement (some (.year y))) = (⟨p.birth, some d, p.treatment⟩, .ok ()) ∧
        d.year = y ∧ d.month = p.birth.month ∧ d.time = p.birth.time ∧
        d.day = min p.birth.day (daysIn y p.birth.month) ∧
        (assign p (.retirement (some (.year y)))).1.retirementAge = y - p.birth.year) ∧
    (y < p.birth.year →
      assign p (.retirement (some (.year y))) = (p, .error .valueError)) := by
  constructor
  · intro h
    have hn := inYear_not_before p.birth hb y h
    have e : assign p (.retirement (some (.year y))) =
        (⟨p.birth, some (p.birth.inYear y), p.treatment⟩, .ok ()) := by
      simp [assign, assignRetirement, retirementOf, hn]
    refine ⟨p.birth.inYear y, e, rfl, rfl, rfl, rfl, ?_⟩
    rw [e]
    show Person.retirementAge p.birth (p.birth.inYear y) = _
    have hy : (p.birth.inYear y).year = y := rfl
    unfold Person.retirementAge
    rw [hy, if_neg (before_irrefl _)]
  · intro h
    have hn : (p.birth.inYear y).Before p.birth := Or.inl h
    simp [assign, assignRetirement, retirementOf, hn]

/-- **C108.** A retirement age: accepted exactly when it is not negative, and it is then what is
read; the retirement is in the year when the person reaches that age, with the month, day and time of
birth. -/
theorem C108_retirement_age (p : Profile T) (hb : p.birth.Valid) (n : ℤ) :
    (0 ≤ n →
      ∃ d, assign p (.retirementAge (some n)) = (⟨p.birth, some d, p.treatment⟩, .ok ()) ∧
        d.year = p.birth.year + n ∧ d.month = p.birth.month ∧ d.time = p.birth.time ∧
        d.day = min p.birth.day (daysIn (p.birth.year + n) p.birth.month) ∧
        (assign p (.retirementAge (some n))).1.retirementAge = n) ∧
    (n < 0 → assign p (.retirementAge (some n)) = (p, .error .valueError)) := by
  have e : assign p (.retirementAge (some n)) =
      assign p (.retirement (some (.year (p.birth.year + n)))) := rfl
  obtain ⟨h1, h2⟩ := C108_retirement_year p hb (p.birth.year + n)
  rw [e]
  refine ⟨fun h => ?_, fun h => h2 (by omega)⟩
  obtain ⟨d, a1, a2, a3, a4, a5, a6⟩ := h1 (by omega)
  exact ⟨d, a1, a2, a3, a4, a5, by rw [a6]; omega⟩

/-- **C108.** A person described by two years: born in `b`, retiring in `r`. The retirement is
accepted exactly when `b ≤ r`, the retirement age is `r - b`, and the age in any year `y` is
`y - b`. -/
theorem C108_by_years (p : Profile T) (b r : ℤ) :
    ((assign (assign p (.birth (.year b))).1 (.retirement (some (.year r)))).2 = .ok () ↔ b ≤ r) ∧
    (b ≤ r → (assign (assign p (.birth (.year b))).1
        (.retirement (some (.year r)))).1.retirementAge = r - b) ∧
    (∀ y, ageInYear (birthOf (.year b)) y = .ok (y - b)) := by
  have hv : (assign p (.birth (.year b))).1.birth.Valid := by
    refine ⟨Nat.le_refl 1, ?_, Nat.le_refl 1, ?_⟩
    · show (1 : ℕ) ≤ 12
      omega
    · show 1 ≤ daysIn b 1
      simp [daysIn]
  have hy : (assign p (.birth (.year b))).1.birth.year = b := rfl
  obtain ⟨h1, h2⟩ := C108_retirement_year (assign p (.birth (.year b))).1 hv r
  rw [hy] at h1 h2
  refine ⟨⟨fun e => ?_, fun h => ?_⟩, fun h => ?_, fun y => ?_⟩
  · by_contra hlt
    rw [h2 (by omega)] at e
    cases e
  · obtain ⟨d, e, -⟩ := h1 h
    rw [e]
  · obtain ⟨d, -, -, -, -, -, e⟩ := h1 h
    exact e
  · have hd : ∀ z : ℤ, (⟨b, 1, 1, 0⟩ : Date).inYear z = ⟨z, 1, 1, 0⟩ := by
      intro z
      simp [Date.inYear, daysIn]
    show age (⟨b, 1, 1, 0⟩ : Date) ((⟨b, 1, 1, 0⟩ : Date).inYear y) = _
    rw [hd]
    have hr : (⟨y, 1, 1, 0⟩ : Date).replaceYear b = .ok ⟨b, 1, 1, 0⟩ := by
      simp [Date.replaceYear, daysIn]
    unfold age
    show (do let d ← (⟨y, 1, 1, 0⟩ : Date).replaceYear b; _) = _
    rw [hr]
    show Except.ok _ = _
    rw [if_neg (before_irrefl _)]

/-- **C108.** A tax treatment: `None` and whatever can be called are stored, anything else is
refused and changes nothing. -/
theorem C108_tax_treatment (p : Profile T) (t : T) :
    assign p (.treatment .none) = (⟨p.birth, p.retirement, none⟩, .ok ()) ∧
    assign p (.treatment (.callable t)) = (⟨p.birth, p.retirement, some t⟩, .ok ()) ∧
    assign p (.treatment .other) = (p, .error .typeError) := ⟨rfl, rfl, rfl⟩

/-- Everything read makes sense: the retirement, if there is one, is not before the birth. -/
def Sensible (p : Profile T) : Prop := ∀ d, p.retirement = some d → ¬ d.Before p.birth

/-- **C108.** No assignment of a retirement date, a retirement age or a tax treatment, accepted or
refused, however many of them, makes a person retire before birth. -/
theorem C108_never_retires_before_birth (p : Profile T) (h : Sensible p) (l : List (Assign T))
    (hl : ∀ a, Assign.birth a ∉ l) : Sensible (assignAll p l) ∧ (assignAll p l).birth = p.birth := by
  induction l generalizing p with
  | nil => exact ⟨h, rfl⟩
  | cons x l ih =>
    have key : ∀ a, Sensible (assignRetirement p a).1 ∧ (assignRetirement p a).1.birth = p.birth := by
      intro a
      cases a with
      | none => exact ⟨fun d e => (by cases e), rfl⟩
      | some a =>
        unfold assignRetirement
        by_cases hb : (retirementOf p.birth a).Before p.birth
        · simp only
          rw [if_pos hb]
          exact ⟨h, rfl⟩
        · simp only
          rw [if_neg hb]
          exact ⟨fun d e => (by cases e; exact hb), rfl⟩
    have hx : Sensible (assign p x).1 ∧ (assign p x).1.birth = p.birth := by
      cases x with
      | birth a => exact absurd List.mem_cons_self (hl a)
      | retirement a => exact key a
      | retirementAge n =>
        cases n with
        | none => exact key none
        | some n => exact key _
      | treatment a =>
        cases a with
        | none => exact ⟨h, rfl⟩
        | callable t => exact ⟨h, rfl⟩
        | other => exact ⟨h, rfl⟩
    have := ih (assign p x).1 hx.1 (fun a ha => hl a (List.mem_cons_of_mem _ ha))
    exact ⟨this.1, this.2.trans hx.2⟩

/-- **C108.** What is read as birth date is what was assigned last. -/
theorem C108_last_birth_date (p : Profile T) (l l' : List (Assign T)) (a : DateArg)
    (hl : ∀ a, Assign.birth a ∉ l') :
    (assignAll p (l ++ .birth a :: l')).birth = birthOf a := by
  have hret : ∀ (q : Profile T) a, (assignRetirement q a).1.birth = q.birth := by
    intro q a
    cases a with
    | none => rfl
    | some a =>
      unfold assignRetirement
      by_cases hb : (retirementOf q.birth a).Before q.birth
      · simp only [hb, if_true]
      · simp only [hb, if_false]
  have keep : ∀ (l' : List (Assign T)) (q : Profile T), (∀ a, Assign.birth a ∉ l') →
      (assignAll q l').birth = q.birth := by
    intro l'
    induction l' with
    | nil => intro q _; rfl
    | cons x l' ih =>
      intro q h
      refine (ih (assign q x).1 (fun a ha => h a (List.mem_cons_of_mem _ ha))).trans ?_
      cases x with
      | birth a => exact absurd List.mem_cons_self (h a)
      | retirement a => exact hret q a
      | retirementAge n =>
        cases n with
        | none => exact hret q none
        | some n => exact hret q _
      | treatment a => cases a <;> rfl
  unfold assignAll
  rw [List.foldl_append, List.foldl_cons]
  exact keep l' _ hl

/-- **C108.** What is read as tax treatment is what was accepted last. -/
theorem C108_last_tax_treatment (p : Profile T) (l l' : List (Assign T)) (t : Option T)
    (hl : ∀ a, Assign.treatment a ∈ l' → a = .other) :
    (assignAll p (l ++ .treatment (match t with | none => .none | some t => .callable t) :: l')).treatment
      = t := by
  have hret : ∀ (q : Profile T) a, (assignRetirement q a).1.treatment = q.treatment := by
    intro q a
    cases a with
    | none => rfl
    | some a =>
      unfold assignRetirement
      by_cases hb : (retirementOf q.birth a).Before q.birth
      · simp only [hb, if_true]
      · simp only [hb, if_false]
  have keep : ∀ (l' : List (Assign T)) (q : Profile T),
      (∀ a, Assign.treatment a ∈ l' → a = .other) →
      (assignAll q l').treatment = q.treatment := by
    intro l'
    induction l' with
    | nil => intro q _; rfl
    | cons x l' ih =>
      intro q h
      refine (ih (assign q x).1 (fun a ha => h a (List.mem_cons_of_mem _ ha))).trans ?_
      cases x with
      | birth a => rfl
      | retirement a => exact hret q a
      | retirementAge n =>
        cases n with
        | none => exact hret q none
        | some n => exact hret q _
      | treatment a =>
        rw [h a List.mem_cons_self]
        rfl
  unfold assignAll
  rw [List.foldl_append, List.foldl_cons]
  refine (keep l' _ hl).trans ?_
  cases t <;> rfl

/-- **C108** (a refuted expectation). `retirement_date = None` and `retirement_age = None` raise
`NotImplementedError`, but not before the retirement date has been erased: the retirement age then
reads 0, and the income, which had stopped, goes on rising. -/
theorem C108_refused_none_erases {K : Type} [Field K] (p : Profile T) (d : Date)
    (hd : p.retirement = some d) (last rate : K) (year : ℤ) (hy : d.year < year) :
    p.incomeIn year last rate = 0 ∧
    ∀ a : Assign T, a = .retirement none ∨ a = .retirementAge none →
      (assign p a).2 = .error .notImplementedError ∧
      (assign p a).1.retirement = none ∧ (assign p a).1.retirementAge = 0 ∧
      (assign p a).1.incomeIn year last rate = last * (1 + rate) := by
  refine ⟨?_, ?_⟩
  · simp [Profile.incomeIn, hd, hy]
  · rintro a (rfl | rfl) <;> exact ⟨rfl, rfl, rfl, rfl⟩

/-- **C108** (a refuted expectation). The birth date is not checked against the retirement: from any
person with a retirement date, one accepted assignment makes a person who retires before birth. -/
theorem C108_birth_date_unchecked (p : Profile T) (d : Date) (hd : p.retirement = some d) :
    ∃ a : DateArg, (assign p (.birth a)).2 = .ok () ∧
      (assign p (.birth a)).1.retirement = some d ∧
      d.Before (assign p (.birth a)).1.birth := by
  refine ⟨.year (d.year + 1), rfl, hd, Or.inl ?_⟩
  show d.year < d.year + 1
  omega

/-- A person to assign to. -/
def somebody : Profile Unit := ⟨⟨1980, 2, 29, 0⟩, some ⟨2045, 2, 28, 0⟩, none⟩

example : Sensible somebody := by
  intro d h
  cases h
  decide

example : (assignAll somebody
      [.retirement (some (.year 1970)), .retirementAge (some 60), .treatment .other,
        .retirement (some (.date ⟨1979, 1, 1, 0⟩)), .treatment (.callable ())]).retirement =
    some ⟨2040, 2, 29, 0⟩ := by decide

example : (assignAll somebody [.retirement (some (.year 2041))]).retirementAge = 61 := by decide

end Assignments

/-! ## The income model of `Model/Person` -/

section Income

variable {K : Type} [Field K] [LinearOrder K] [IsStrictOrderedRing K]

omit [LinearOrder K] [IsStrictOrderedRing K] in
/-- **C108.** `Profile.incomeIn` is what `gross_income` computes in a new year, for a person with a
retirement date. -/
theorem C108_income_agrees (q : Earner K) (p : Profile (K → ℤ → Except PyErr K)) (last rate : K)
    (hr : p.retirement = some q.retirement) (hnew : Dict.get? q.gross q.year = none)
    (hlast : Dict.get? q.gross (q.year - 1) = some last)
    (hrate : Dict.get? q.raises q.year = some (some rate)) :
    ∃ q', grossIncome q = .ok (p.incomeIn q.year last rate, q') := by
  unfold grossIncome
  rw [hnew]
  simp only [Profile.incomeIn, hr]
  by_cases hy : q.retirement.year < q.year
  · simp only [hy, if_true]
    exact ⟨_, rfl⟩
  · simp only [hy, if_false]
    have e1 : look q.gross (q.year - 1) = .ok last := by simp [look, hlast]
    have e2 : raiseRate q = .ok (some rate, q) := by simp [raiseRate, hrate]
    rw [e1, e2]
    exact ⟨_, rfl⟩

end Income

/-! ## The constructor -/

section Create

variable {K : Type} [Field K] [LinearOrder K] [IsStrictOrderedRing K] {P : Type} [DecidableEq P]

/-- The tax on the opening income is `x`: 0 without a tax treatment. -/
def OpeningTax (tax : TaxArg (K → ℤ → Except PyErr K)) (income : K) (year : ℤ) (x : K) : Prop :=
  match tax with
  | .none => x = 0
  | .callable t => t income year = .ok x
  | .other => False

/-- The tax treatment, as read. -/
def TaxArg.read {T : Type} : TaxArg T → Option T
  | .callable t => some t
  | .none => Option.none
  | .other => Option.none

theorem createIncome_ok (year : ℤ) (p : Profile (K → ℤ → Except PyErr K)) (ret : Date)
    (raise : RaiseArg K) (tax : TaxArg (K → ℤ → Except PyErr K)) (income : K)
    (r : Profile (K → ℤ → Except PyErr K) × Earner K) :
    createIncome year p ret raise tax income = .ok r ↔
      ∃ x, OpeningTax tax income year x ∧
        r.1 = { p with
          treatment := tax.read } ∧
        r.2 = { year, retirement := ret, tax := tax.read,
                raise := raiseCallable raise.orZero,
                gross := [(year, income)], raises := [], net := [(year, income - x)] } := by
  obtain ⟨r1, r2⟩ := r
  cases tax with
  | none =>
    constructor
    · intro h
      cases h
      exact ⟨0, rfl, rfl, rfl⟩
    · rintro ⟨x, hx, h1, h2⟩
      cases hx
      simp only at h1 h2
      subst h1 h2
      rfl
  | other =>
    constructor
    · intro h
      cases h
    · rintro ⟨x, hx, -⟩
      exact hx.elim
  | callable t =>
    have hg : Dict.get? [(year, income)] year = some income := by simp [Dict.get?]
    cases ht : t income year with
    | error e =>
      constructor
      · intro h
        simp [createIncome, assignTreatment, Earner.init, taxWithheld, grossIncome, hg, ht, bind,
          Except.bind] at h
      · rintro ⟨x, hx, -⟩
        simp only [OpeningTax, ht] at hx
        cases hx
    | ok v =>
      have hv : createIncome year p ret raise (.callable t) income =
          .ok ({ p with treatment := some t },
            { year, retirement := ret, tax := some t, raise := raiseCallable raise.orZero,
              gross := [(year, income)], raises := [], net := [(year, income - v)] }) := by
        simp [createIncome, assignTreatment, Earner.init, taxWithheld, grossIncome, hg, ht, bind,
          Except.bind]
      rw [hv]
      constructor
      · intro h
        cases h
        exact ⟨v, ht, rfl, rfl⟩
      · rintro ⟨x, hx, h1, h2⟩
        simp only [OpeningTax, ht, Except.ok.injEq] at hx
        simp only at h1 h2
        subst hx h1 h2
        rfl

/-- **C108.** A person is made exactly when a retirement date is given that is not before the birth,
the spouse is a person or `None`, the tax treatment is callable or `None`, and the tax on the
opening income can be computed. The person then has these dates and this treatment, the income
given, and net of the tax on it; and is tied to the spouse given, who is tied back. -/
theorem C108_creation (s : Couples P) (self : P) (year : ℤ) (birth : DateArg)
    (ret : Option DateArg) (raise : RaiseArg K) (spouse : SpouseArg P)
    (tax : TaxArg (K → ℤ → Except PyErr K)) (income : K)
    (p : Profile (K → ℤ → Except PyErr K)) (e : Earner K) :
    (create s self year birth ret raise spouse tax income).2 = .ok (p, e) ↔
      (∃ a, ret = some a ∧ ¬ (retirementOf (birthOf birth) a).Before (birthOf birth) ∧
        p = ⟨birthOf birth, some (retirementOf (birthOf birth) a), tax.read⟩ ∧
        e.retirement = retirementOf (birthOf birth) a) ∧
      spouse ≠ .other ∧
      ∃ x, OpeningTax tax income year x ∧ e.year = year ∧ e.tax = tax.read ∧
        e.raise = raiseCallable raise.orZero ∧ e.gross = [(year, income)] ∧ e.raises = [] ∧
        e.net = [(year, income - x)] := by
  have hfree : put s self none self = none := by simp [put]
  unfold create
  cases ret with
  | none =>
    simp [assignRetirement]
  | some a =>
    by_cases hb : (retirementOf (birthOf birth) a).Before (birthOf birth)
    · simp [assignRetirement, hb]
    · have hsp : spouse ≠ .other →
          (setSpouse (put s self none) self spouse).2 = .ok () := by
        intro h
        cases spouse with
        | none => rfl
        | person q => rfl
        | other => exact absurd rfl h
      simp only [assignRetirement, hb, if_false]
      by_cases ho : spouse = .other
      · subst ho
        simp [setSpouse, hfree]
      · have h2 := hsp ho
        generalize setSpouse (put s self none) self spouse = w at h2
        obtain ⟨s1, w2⟩ := w
        simp only at h2
        subst h2
        simp only
        rw [createIncome_ok]
        obtain ⟨y, er, era, et, eg, ers, en⟩ := e
        constructor
        · rintro ⟨x, hx, h1, h2⟩
          cases h2
          exact ⟨⟨a, rfl, hb, h1, rfl⟩, ho, x, hx, rfl, rfl, rfl, rfl, rfl, rfl⟩
        · rintro ⟨⟨a', ha', -, hp, hr⟩, -, x, hx, h1, h2, h3, h4, h5, h6⟩
          cases ha'
          refine ⟨x, hx, hp, ?_⟩
          simp only at hr h1 h2 h3 h4 h5 h6
          subst hr h1 h2 h3 h4 h5 h6
          rfl

/-- **C108.** What making a person does to everybody's spouse, when it works: the two are tied to
each other and nobody else is touched. -/
theorem C108_creation_ties (s : Couples P) (self q : P) (hq : q ≠ self) (year : ℤ)
    (birth : DateArg) (ret : Option DateArg) (raise : RaiseArg K)
    (tax : TaxArg (K → ℤ → Except PyErr K)) (income : K) :
    (∀ r, (create s self year birth ret raise (.person q) tax income).2 = .ok r →
      (create s self year birth ret raise (.person q) tax income).1 self = some q ∧
      (create s self year birth ret raise (.person q) tax income).1 q = some self ∧
      ∀ z, z ≠ self → z ≠ q →
        (create s self year birth ret raise (.person q) tax income).1 z = s z) ∧
    (∀ r, (create s self year birth ret raise .none tax income).2 = .ok r →
      (create s self year birth ret raise .none tax income).1 self = none ∧
      ∀ z, z ≠ self → (create s self year birth ret raise .none tax income).1 z = s z) := by
  have hfree : put s self none self = none := by simp [put]
  constructor
  · intro r h
    unfold create at h ⊢
    simp only at h ⊢
    cases hret : assignRetirement (T := K → ℤ → Except PyErr K) ⟨birthOf birth, none, none⟩ ret with
    | mk p1 w =>
      cases w with
      | error e => rw [hret] at h; cases h
      | ok u =>
        rw [hret] at h
        simp only [setSpouse, hfree] at h ⊢
        cases hp : p1.retirement with
        | none => rw [hp] at h; cases h
        | some d =>
          simp only
          refine ⟨by simp [put], by simp [put, hq], fun z h1 h2 => by simp [put, h1, h2]⟩
  · intro r h
    unfold create at h ⊢
    simp only at h ⊢
    cases hret : assignRetirement (T := K → ℤ → Except PyErr K) ⟨birthOf birth, none, none⟩ ret with
    | mk p1 w =>
      cases w with
      | error e => rw [hret] at h; cases h
      | ok u =>
        rw [hret] at h
        simp only [setSpouse, hfree] at h ⊢
        cases hp : p1.retirement with
        | none => rw [hp] at h; cases h
        | some d =>
          simp only
          refine ⟨by simp [put], fun z h1 => by simp [put, h1]⟩

/-- **C108.** Dates that are refused are refused before anybody else is touched: without a
retirement date `NotImplementedError`, with one before the birth `ValueError`, and everybody has
the spouse they had. -/
theorem C108_refused_dates (s : Couples P) (self : P) (year : ℤ) (birth : DateArg)
    (raise : RaiseArg K) (spouse : SpouseArg P) (tax : TaxArg (K → ℤ → Except PyErr K))
    (income : K) :
    ((create s self year birth none raise spouse tax income).2 = .error .notImplementedError ∧
      ∀ z, z ≠ self → (create s self year birth none raise spouse tax income).1 z = s z) ∧
    ∀ a, (retirementOf (birthOf birth) a).Before (birthOf birth) →
      (create s self year birth (some a) raise spouse tax income).2 = .error .valueError ∧
      ∀ z, z ≠ self → (create s self year birth (some a) raise spouse tax income).1 z = s z := by
  refine ⟨⟨rfl, fun z hz => ?_⟩, fun a ha => ?_⟩
  · show put s self none z = s z
    simp [put, hz]
  · have e : create s self year birth (some a) raise spouse tax income =
        (put s self none, .error .valueError) := by
      simp [create, assignRetirement, ha]
    rw [e]
    exact ⟨rfl, fun z hz => by simp [put, hz]⟩

/-- **C108** (a refuted expectation). A tax treatment that cannot be called, or one that raises on
the opening income, is found out after the spouse: no person is made, and yet the would-be spouse is
tied to it, and no longer to whoever they were tied to. -/
theorem C108_refused_after_the_wedding (s : Couples P) (self q : P) (hq : q ≠ self) (year : ℤ)
    (birth a : DateArg) (ha : ¬ (retirementOf (birthOf birth) a).Before (birthOf birth))
    (raise : RaiseArg K) (tax : TaxArg (K → ℤ → Except PyErr K)) (income : K) :
    (tax = .other →
      (create s self year birth (some a) raise (.person q) tax income).2 = .error .typeError) ∧
    (∀ t e, tax = .callable t → t income year = .error e →
      (create s self year birth (some a) raise (.person q) tax income).2 = .error e) ∧
    (create s self year birth (some a) raise (.person q) tax income).1 q = some self := by
  have hfree : put s self none self = none := by simp [put]
  refine ⟨?_, ?_, ?_⟩
  · rintro rfl
    simp [create, assignRetirement, ha, setSpouse, hfree, createIncome, assignTreatment]
  · rintro t e rfl ht
    have hg : Dict.get? [(year, income)] year = some income := by simp [Dict.get?]
    simp [create, assignRetirement, ha, setSpouse, hfree, createIncome, assignTreatment,
      Earner.init, taxWithheld, grossIncome, hg, ht, bind, Except.bind]
  · simp [create, assignRetirement, ha, setSpouse, hfree, put, hq]

/-- Somebody, with a spouse and a tax of a quarter. -/
def newborn : Couples ℕ × Except PyErr (Profile (ℚ → ℤ → Except PyErr ℚ) × Earner ℚ) :=
  create (fun _ => none) 0 2020 (.year 1980) (some (.year 2045)) .none (.person 1)
    (.callable (fun x _ => .ok (x / 4))) 100

example : newborn.2.toOption.map (fun r => r.1.birth) = some ⟨1980, 1, 1, 0⟩ := by decide +kernel
example : newborn.2.toOption.map (fun r => r.1.retirement) = some (some ⟨2045, 1, 1, 0⟩) := by
  decide +kernel
example : newborn.2.toOption.map (fun r => Dict.get? r.2.net 2020) = some (some 75) := by
  decide +kernel
example : newborn.1 1 = some 0 := by decide +kernel

end Create

end Forecaster.Person
