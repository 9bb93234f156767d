import Verif.Model.FamilyCanada
import Verif.Props.FamilyKinds
import Verif.Props.Shipped

/-!
# C123: what a Canadian family owes
-/

namespace Forecaster.Family

open Forecaster Forecaster.Account Forecaster.Inflation
open Forecaster.Household (Home Run Sound forecast cash moved opening holdings)
open Forecaster.Forecast (FS scenarioYears)

variable {K : Type} [Field K] [LinearOrder K] [IsStrictOrderedRing K]

/-- Specification: the rules of one jurisdiction in one year. -/
structure Rules (K : Type) where
  brackets : Dict K K
  basic : K
  rate : K
  pension : K
  spousal : K

/-- Specification: these are its rules in the year `y`. -/
structure InForce (L : Law K) (y : ℤ) (Y : Rules K) : Prop where
  reachable : Tax.Reachable L.tax
  brackets : ∃ t', Tax.taxBrackets L.tax y = .ok (Y.brackets, t')
  basic : Tax.personalDeduction L.tax y = .ok Y.basic
  rate : Tax.creditRate L.tax y = .ok Y.rate
  pension : Tax.adjusted L.pensionCap L.tax.adjust y = .ok Y.pension
  spousal : Tax.adjusted L.spousalAmount L.tax.adjust y = .ok Y.spousal
  rates : ∀ kv ∈ Y.brackets, 0 ≤ kv.2
  rate_nonneg : 0 ≤ Y.rate
  pension_nonneg : 0 ≤ Y.pension

/-- Specification: what a family's members declare: their incomes, deductions and credits, and what they have
taken out of their RRSPs. -/
structure Return (K : Type) where
  income : ℕ → K
  deduction : ℕ → K
  credit : ℕ → K
  pension : ℕ → K

/-- Specification: the net income of a member: less the basic amount and (once) the deductions. -/
def netIncomeOf (Y : Rules K) (D : Return K) (i : ℕ) : K := D.income i - (Y.basic + D.deduction i)

/-- Specification: the spousal credit goes to the one with more net income (with the same net income, to the
one whose memory address is not the lower one); it is the spousal amount less the net income of the other. -/
def spousalOf (F : Family K) (C : Canada K) (Y : Rules K) (D : Return K) (i : ℕ) : K :=
  match (F.member i).spouse with
  | none => 0
  | some j =>
    if netIncomeOf Y D i < netIncomeOf Y D j ∨ netIncomeOf Y D i = netIncomeOf Y D j ∧ C.idLt i j = true
    then 0 else max (Y.spousal - netIncomeOf Y D j) 0

/-- Specification: what the `i`-th member owes one jurisdiction: its brackets applied to the income less the
basic amount and (C49: twice) the deductions, less, at the credit rate, (twice) the credits of the accounts,
what has been taken out of RRSPs up to the pension amount, and the spousal credit. -/
def owes (F : Family K) (C : Canada K) (Y : Rules K) (D : Return K) (i : ℕ) : K :=
  max (Tax.bracketTax (Tax.ascending Y.brackets) (D.income i - Y.basic - 2 * D.deduction i)
    - (2 * D.credit i + min (D.pension i) Y.pension + spousalOf F C Y D i) * Y.rate) 0

/-- A member as the tax code sees them. -/
def declarer (F : Family K) (y : ℤ) (D : Return K) (i : ℕ) : Tax.Payer K :=
  { id := i
    spouse := (F.member i).spouse
    taxableIncome := fun z => if z = y then some (D.income i) else none
    taxDeduction := fun z => if z = y then some (D.deduction i) else none
    taxCredit := fun z => if z = y then some (D.credit i) else none }

theorem spousalOf_nonneg (F : Family K) (C : Canada K) (Y : Rules K) (D : Return K) (i : ℕ) :
    0 ≤ spousalOf F C Y D i := by
  unfold spousalOf
  split
  · exact le_rfl
  · split
    · exact le_rfl
    · exact le_max_right _ _

/-- What one jurisdiction makes of a family's declarations. -/
theorem jurisdiction_eq {F : Family K} {C : Canada K} {L : Law K} {y : ℤ} {Y : Rules K}
    (hL : InForce L y Y) {D : Return K} {E : Tax.CanEnv K} (hcap : E.pensionCap = L.pensionCap)
    (hamount : E.spousalAmount = L.spousalAmount) (hlt : E.idLt = C.idLt)
    (hpayer : ∀ i < F.size, E.payer i = some (declarer F y D i))
    (hincome : ∀ i < F.size, E.income i = D.income i)
    (hpension : ∀ i < F.size, |(E.rrspOutflows i).sum| = D.pension i)
    (hcredit : ∀ i < F.size, 0 ≤ D.credit i)
    (hspouse : ∀ i < F.size, ∀ j, (F.member i).spouse = some j → j < F.size) :
    ∃ j', Tax.call (Tax.canadaJur E L.tax) (.people ((List.range F.size).map (declarer F y D))) y none none
      = .ok (everybody F (owes F C Y D), j') := by
  obtain ⟨t', hB⟩ := hL.brackets
  obtain ⟨j', h2⟩ := Tax.C31_calling (Tax.canadaJur E L.tax) hL.reachable (Tax.canada_pure E L.tax)
    ((List.range F.size).map (declarer F y D))
    (by
      rw [List.map_map]
      have : (Tax.Payer.id ∘ declarer F y D) = id := rfl
      rw [this, List.map_id]
      exact List.nodup_range) y none none (fun p => owes F C Y D p.id) (by
      intro p hp
      obtain ⟨i, hi, rfl⟩ := List.mem_map.1 hp
      have hi' := List.mem_range.1 hi
      have hp0 : 0 ≤ D.pension i := by rw [← hpension i hi']; exact abs_nonneg _
      have hpen : Tax.pensionCredit E.pensionCap L.tax.adjust (E.rrspOutflows i) y
          = .ok (min (D.pension i) Y.pension) := by
        have h := hL.pension
        unfold Tax.pensionCredit
        unfold Tax.adjusted at h
        rw [hcap]
        cases he : extendInflationAdjusted (Dict.mapVals Val.scalar L.pensionCap) L.tax.adjust y with
        | error e => rw [he] at h; cases h
        | ok v =>
          rw [he, ok_bind] at h
          cases v with
          | dict d => cases h
          | list l => cases h
          | scalar m =>
            cases h
            rw [ok_bind, ← hpension i hi']
      have net : ∀ j, Tax.NetIncome L.tax (declarer F y D j) (D.income j) y (netIncomeOf Y D j) := by
        intro j
        refine ⟨Y.basic + D.deduction j, ?_, rfl⟩
        simp [Tax.deductionFor, hL.basic, Tax.hist, declarer]
      have hcred : Tax.canadaCredit E L.tax (declarer F y D i) y
          = .ok (D.credit i + min (D.pension i) Y.pension + spousalOf F C Y D i) := by
        unfold Tax.canadaCredit
        have e1 : Tax.creditFor (declarer F y D i) y = .ok (D.credit i) := by
          simp [Tax.creditFor, Tax.hist, declarer]
        have e2 : E.rrspOutflows (declarer F y D i).id = E.rrspOutflows i := rfl
        rw [e1, e2, hpen, ok_bind, ok_bind]
        unfold spousalOf
        cases hs : (F.member i).spouse with
        | none =>
          have : (declarer F y D i).spouse = none := hs
          rw [this]
          simp
        | some j =>
          have hj := hspouse i hi' j hs
          have : (declarer F y D i).spouse = some j := hs
          rw [this, Option.bind_some, hpayer j hj]
          have e3 := Tax.spousal_eq L.tax L.spousalAmount (declarer F y D i) (declarer F y D j)
            (D.income i) (D.income j) (C.idLt i j) y _ _ _ (net i) (net j) hL.spousal
          have e4 : E.income (declarer F y D i).id = D.income i := hincome i hi'
          have e5 : E.income (declarer F y D j).id = D.income j := hincome j hj
          have e6 : E.idLt (declarer F y D i).id (declarer F y D j).id = C.idLt i j := by rw [hlt]; rfl
          simp only [hamount]
          rw [e4, e5, e6, e3, ok_bind]
          by_cases g1 : netIncomeOf Y D i < netIncomeOf Y D j
          · rw [if_pos g1, if_pos (Or.inl g1)]
          · rw [if_neg g1]
            by_cases g2 : netIncomeOf Y D i = netIncomeOf Y D j ∧ C.idLt i j = true
            · rw [if_pos g2, if_pos (Or.inr g2)]
            · rw [if_neg g2, if_neg (not_or.2 ⟨g1, g2⟩)]
      have h4 := Tax.C28_tax_is_bracket_sum' hL.reachable hB hL.rate (D.income i)
        (D.deduction i + (Y.basic + D.deduction i) + 0)
        (D.credit i + (D.credit i + min (D.pension i) Y.pension + spousalOf F C Y D i) + 0) hL.rates
        (by
          have h1 := hcredit i hi'
          have h2 := spousalOf_nonneg F C Y D i
          have h3 := le_min hp0 hL.pension_nonneg
          linarith) hL.rate_nonneg
      refine ⟨{ Tax.canadaJur E L.tax with tax := t' }, ?_⟩
      have e : Dict.val ((none : Option (Dict ℕ K)).getD []) (declarer F y D i).id = 0 := rfl
      rw [e]
      have e1 : (declarer F y D i).taxableIncome y = some (D.income i) := by simp [declarer]
      have e2 : (declarer F y D i).taxDeduction y = some (D.deduction i) := by simp [declarer]
      have e3 : (declarer F y D i).taxCredit y = some (D.credit i) := by simp [declarer]
      simp only [Tax.taxPerson, Tax.hist, e1, e2, e3, ok_bind, Tax.canadaJur, hcred, Tax.deductionFor,
        hL.basic]
      rw [h4, ok_bind]
      have g1 : D.income i - (D.deduction i + (Y.basic + D.deduction i) + 0)
          = D.income i - Y.basic - 2 * D.deduction i := by ring
      have g2 : D.credit i + (D.credit i + min (D.pension i) Y.pension + spousalOf F C Y D i) + 0
          = 2 * D.credit i + min (D.pension i) Y.pension + spousalOf F C Y D i := by ring
      rw [g1, g2]
      rfl)
  refine ⟨j', h2.trans ?_⟩
  unfold everybody
  rw [List.map_map]
  rfl

/-- What a Canadian family owes in any year, in terms of what its people say they earn in it. -/
theorem canadaOwing_eq {F : Family K} {C : Canada K} {y : ℤ} {fed prov : Rules K}
    (hf : InForce C.federal y fed) (hp : InForce C.provincial y prov)
    (hspouse : ∀ i < F.size, ∀ j, (F.member i).spouse = some j → j < F.size)
    (acc : ℕ → Acct K) {inc ded cred : ℕ → K}
    (hinc : ∀ i < F.size, ∀ a ∈ owned F i, (F.holding a).taxableIncome (acc a) = .ok (inc a))
    (hded : ∀ i < F.size, ∀ a ∈ owned F i, (F.holding a).deduction (acc a) = .ok (ded a))
    (hcred : ∀ i < F.size, ∀ a ∈ owned F i, (F.holding a).credit (acc a) = .ok (cred a))
    (hc0 : ∀ i < F.size, 0 ≤ overAccounts F i cred) {D : Return K}
    (hD : D = ⟨fun i => gross F i y + overAccounts F i inc, fun i => overAccounts F i ded,
      fun i => overAccounts F i cred,
      fun i => |(((owned F i).filter C.rrsp).map fun a => outflows (acc a) none).sum|⟩) :
    canadaOwing F C y acc = .ok (everybody F fun i => owes F C fed D i + owes F C prov D i) := by
  have e1 : (List.range F.size).mapM (payer F y acc) = .ok ((List.range F.size).map (declarer F y D)) := by
    apply mapM_total
    intro i hi
    have hi' := List.mem_range.1 hi
    unfold payer
    rw [sumOwned_ok F (hinc i hi'), sumOwned_ok F (hded i hi'), sumOwned_ok F (hcred i hi')]
    subst hD
    rfl
  have hget : ∀ i < F.size, ((List.range F.size).map (declarer F y D))[i]? = some (declarer F y D i) := by
    intro i hi
    rw [List.getElem?_map, List.getElem?_range hi]; rfl
  have key : ∀ (L : Law K) (Y : Rules K), InForce L y Y →
      ∃ j', Tax.call (Tax.canadaJur (sight F C L y acc ((List.range F.size).map (declarer F y D))) L.tax)
        (.people ((List.range F.size).map (declarer F y D))) y none none
        = .ok (everybody F (owes F C Y D), j') := by
    intro L Y hL
    refine jurisdiction_eq hL rfl rfl rfl hget (fun i hi => ?_) (fun i hi => ?_) (fun i hi => ?_) hspouse
    · show ((((List.range F.size).map (declarer F y D))[i]?).bind fun p => p.taxableIncome y).getD 0 = _
      rw [hget i hi]
      simp [declarer]
    · subst hD; rfl
    · subst hD; exact hc0 i hi
  obtain ⟨j1, k1⟩ := key C.federal fed hf
  obtain ⟨j2, k2⟩ := key C.provincial prov hp
  unfold canadaOwing
  rw [e1, ok_bind]
  simp only []
  rw [Tax.C50_canada_is_federal_plus_provincial _ _ _ _ _ _ _ _ _ _ _ _ k1 k2, ok_bind, everybody_add]

/-- Specification: every member's spouse, if any, is one of the family. -/
def Together (F : Family K) : Prop := ∀ i < F.size, ∀ j, (F.member i).spouse = some j → j < F.size

/-- **C123.** The tax a Canadian family owes for the `k`-th year, whatever its accounts are, is what each
member owes each of the two jurisdictions (see `owes`) on what the member has earned at work and what the
member's accounts count as income, deductions and credits. -/
theorem C123_tax {F : Family K} {c : ℕ → Contract K} (hw : Wages F c) {C : Canada K} (k : ℕ)
    {fed prov : Rules K} (hf : InForce C.federal (F.initial + k) fed)
    (hp : InForce C.provincial (F.initial + k) prov) (hs : Together F)
    (acc : ℕ → Acct K) {inc ded cred : ℕ → K}
    (hinc : ∀ i < F.size, ∀ a ∈ owned F i, (F.holding a).taxableIncome (acc a) = .ok (inc a))
    (hded : ∀ i < F.size, ∀ a ∈ owned F i, (F.holding a).deduction (acc a) = .ok (ded a))
    (hcred : ∀ i < F.size, ∀ a ∈ owned F i, (F.holding a).credit (acc a) = .ok (cred a))
    (hc0 : ∀ i < F.size, 0 ≤ overAccounts F i cred) {D : Return K}
    (hD1 : ∀ i < F.size, D.income i = earns (c i) F.initial k + overAccounts F i inc)
    (hD2 : ∀ i < F.size, D.deduction i = overAccounts F i ded)
    (hD3 : ∀ i < F.size, D.credit i = overAccounts F i cred)
    (hD4 : ∀ i < F.size, D.pension i
      = (((owned F i).filter C.rrsp).map fun a => takenOut (acc a)).sum) :
    (canadaHousehold F C).owing (F.initial + k) acc
      = .ok (everybody F fun i => owes F C fed D i + owes F C prov D i) := by
  refine (canadaOwing_eq hf hp hs acc hinc hded hcred hc0 rfl).trans ?_
  have pen : ∀ l : List ℕ, |(l.map fun a => outflows (acc a) none).sum|
      = (l.map fun a => takenOut (acc a)).sum := by
    intro l
    have e : (l.map fun a => outflows (acc a) none).sum = -(l.map fun a => takenOut (acc a)).sum ∧
        0 ≤ (l.map fun a => takenOut (acc a)).sum := by
      induction l with
      | nil => simp
      | cons a l ih =>
        have h : takenOut (acc a) = -outflows (acc a) none :=
          (Registered.C34_taxable_and_deductible (acc a)).1.symm
        have h0 : 0 ≤ takenOut (acc a) := by
          unfold takenOut
          exact List.sum_nonneg fun x hx => by
            obtain ⟨v, -, rfl⟩ := List.mem_map.1 hx; exact le_max_right _ _
        simp only [List.map_cons, List.sum_cons]
        exact ⟨by linarith [ih.1], by linarith [ih.2]⟩
    rw [e.1, abs_neg, abs_of_nonneg e.2]
  set D' : Return K := ⟨fun i => gross F i (F.initial + k) + overAccounts F i inc,
    fun i => overAccounts F i ded, fun i => overAccounts F i cred,
    fun i => |(((owned F i).filter C.rrsp).map fun a => outflows (acc a) none).sum|⟩ with hD'
  have same : ∀ i < F.size, D'.income i = D.income i ∧ D'.deduction i = D.deduction i ∧
      D'.credit i = D.credit i ∧ D'.pension i = D.pension i := by
    intro i hi
    refine ⟨?_, (hD2 i hi).symm, (hD3 i hi).symm, ?_⟩
    · rw [hD1 i hi, ← gross_eq hw hi k]
    · rw [hD4 i hi]; exact pen _
  have each : ∀ Y : Rules K, ∀ i < F.size, owes F C Y D' i = owes F C Y D i := by
    intro Y i hi
    obtain ⟨s1, s2, s3, s4⟩ := same i hi
    have hsp : spousalOf F C Y D' i = spousalOf F C Y D i := by
      unfold spousalOf
      cases e : (F.member i).spouse with
      | none => rfl
      | some j =>
        obtain ⟨r1, r2, -, -⟩ := same j (hs i hi j e)
        have n1 : netIncomeOf Y D' i = netIncomeOf Y D i := by unfold netIncomeOf; rw [s1, s2]
        have n2 : netIncomeOf Y D' j = netIncomeOf Y D j := by unfold netIncomeOf; rw [r1, r2]
        simp only [n1, n2]
    unfold owes
    rw [s1, s2, s3, s4, hsp]
  unfold everybody
  congr 2
  apply List.map_congr_left
  intro i hi
  rw [each fed i (List.mem_range.1 hi), each prov i (List.mem_range.1 hi)]

/-- **C123.** Of two spouses, at most one gets the spousal credit, and not the one with less net income. -/
theorem C123_one_spousal_credit {F : Family K} {C : Canada K} (Y : Rules K) (D : Return K) {i j : ℕ}
    (hi : (F.member i).spouse = some j) (hj : (F.member j).spouse = some i)
    (hlt : C.idLt i j = true ∨ C.idLt j i = true) :
    (spousalOf F C Y D i = 0 ∨ spousalOf F C Y D j = 0) ∧
    (netIncomeOf Y D i < netIncomeOf Y D j → spousalOf F C Y D i = 0 ∧
      spousalOf F C Y D j = max (Y.spousal - netIncomeOf Y D i) 0) := by
  unfold spousalOf
  rw [hi, hj]
  simp only []
  rcases lt_trichotomy (netIncomeOf Y D i) (netIncomeOf Y D j) with h | h | h
  · exact ⟨.inl (if_pos (.inl h)), fun _ => ⟨if_pos (.inl h), if_neg fun g => by
      rcases g with g | g
      · exact lt_asymm g h
      · exact h.ne g.1.symm⟩⟩
  · refine ⟨?_, fun g => absurd h g.ne⟩
    rcases hlt with g | g
    · exact .inl (if_pos (.inr ⟨h, g⟩))
    · exact .inr (if_pos (.inr ⟨h.symm, g⟩))
  · exact ⟨.inr (if_pos (.inl h)), fun g => absurd h (lt_asymm g)⟩

/-! ### RRSPs, TFSAs, taxable accounts and residences -/

/-- Specification: what the members of a family with such accounts declare. -/
def declared (F : Family K) (c : ℕ → Contract K) (kind : ℕ → Kind) (k : ℕ) (acc : ℕ → Acct K)
    (gain real : ℕ → K) : Return K where
  income i := earns (c i) F.initial k + over F kind .plain i gain
    + over F kind .rrsp i (fun a => takenOut (acc a)) + over F kind .taxable i (fun a => real a / 2)
  deduction i := over F kind .rrsp i (fun a => paidIn (acc a))
  credit _ := 0
  pension i := over F kind .rrsp i (fun a => takenOut (acc a))

/-- **C123.** For a family with plain accounts, RRSPs, TFSAs, taxable accounts and residences. -/
theorem C123_tax_on_accounts {F : Family K} {c : ℕ → Contract K} (hw : Wages F c) {C : Canada K} {k : ℕ}
    {fed prov : Rules K} (hf : InForce C.federal (F.initial + k) fed)
    (hp : InForce C.provincial (F.initial + k) prov) (hs : Together F)
    {kind : ℕ → Kind} {base : ℕ → K} (hk : Kinds F kind base)
    (hC : ∀ a, C.rrsp a = true ↔ kind a = .rrsp) (acc : ℕ → Acct K) {gain real : ℕ → K}
    (hg : ∀ a, Gain (acc a) (gain a)) (hz : Realized F kind base acc real) :
    (canadaHousehold F C).owing (F.initial + k) acc
      = .ok (everybody F fun i => owes F C fed (declared F c kind k acc gain real) i
        + owes F C prov (declared F c kind k acc gain real) i) := by
  have zero : ∀ i, overAccounts F i (fun _ => (0 : K)) = 0 := by
    intro i; simp [overAccounts]
  refine C123_tax hw k hf hp hs acc
    (inc := incomeOf kind acc gain real)
    (ded := fun a => if kind a = .rrsp then paidIn (acc a) else 0) (cred := fun _ => 0)
    (fun _ hi _ ha => (kinds_answer hk hg hz hi ha).1) (fun _ hi _ ha => (kinds_answer hk hg hz hi ha).2.1)
    (fun _ hi _ ha => (kinds_answer hk hg hz hi ha).2.2) (fun i _ => (zero i).ge)
    (fun i _ => ?_) (fun i _ => ?_) (fun i _ => ?_) (fun i _ => ?_)
  · rw [(kinds_sums F kind acc gain real i).1]
    show earns (c i) F.initial k + over F kind .plain i gain
      + over F kind .rrsp i (fun a => takenOut (acc a)) + over F kind .taxable i (fun a => real a / 2) = _
    ring
  · rw [(kinds_sums F kind acc gain real i).2]; rfl
  · rw [zero]; rfl
  · show over F kind .rrsp i (fun a => takenOut (acc a)) = _
    unfold over
    have : (fun a => decide (kind a = .rrsp)) = C.rrsp := by
      funext a
      by_cases h : kind a = .rrsp
      · rw [(hC a).2 h]; simpa using h
      · have : C.rrsp a ≠ true := fun g => h ((hC a).1 g)
        simp [h, this]
    rw [this]

/-- The report in terms of a run of the forecast. -/
theorem canada_report_of_run {F : Family K} {C : Canada K} (hE : Sound (canadaHousehold F C))
    {c : ℕ → Contract K} (hw : Wages F c)
    {R : ℤ} (hR : FirstRetirement F c R) {kind : ℕ → Kind} {base : ℕ → K} (hk : Kinds F kind base)
    (hC : ∀ a, C.rrsp a = true ↔ kind a = .rrsp) (hs : Together F) {n : ℕ} {fed prov : ℕ → Rules K}
    (hf : ∀ k < n, InForce C.federal (F.initial + k) (fed k))
    (hp : ∀ k < n, InForce C.provincial (F.initial + k) (prov k)) {accounts : ℕ → Acct K}
    (hacc : ∀ a, Account.Reachable (accounts a))
    {s : FS K (Home ℕ ℕ K)} {start fin : ℕ → FS K (Home ℕ ℕ K)}
    (hr : Run (canadaHousehold F C) F.initial n accounts s start fin) :
    ∃ (living tax : ℕ → K) (gain real : ℕ → ℕ → K),
      (∀ k < n, ∃ ps, Informed F c k ps ∧ F.plan.call (balances (start k).w.accounts) (some ps)
        (some (F.initial + k)) (some R) = .ok (living k)) ∧
      (∀ k a, k < n → Gain ((fin k).w.accounts a) (gain k a)) ∧
      (∀ k < n, Realized F kind base (fin k).w.accounts (real k)) ∧
      (∀ k < n, tax k = everybody F fun i =>
        owes F C (fed k) (declared F c kind k (fin k).w.accounts (gain k) (real k)) i
          + owes F C (prov k) (declared F c kind k (fin k).w.accounts (gain k) (real k)) i) ∧
      s.w.report = ((List.range n).map fun (k : ℕ) =>
        { income := everybody F fun i => takesHome (c i) F.initial k
          livingExpenses := living k
          savings := max ((everybody F fun i => takesHome (c i) F.initial k) - living k) 0
          principal := (F.assets.map fun a => opening ((start k).w.accounts a)).sum
          withdrawals := .fin (-(cash (start k) + (everybody F fun i => takesHome (c i) F.initial k)
            - living k - moved ((fin k).w.sub .saving).txs))
          tax := tax k }) ∧
      ∀ k < n, cash (start (k + 1))
        = cash (fin k) + keptFrom F c kind k (fin k).w.accounts - tax k := by
  obtain ⟨owing, h1, h2⟩ := Household.C79_report hE hacc hr
  obtain ⟨_, h3, -⟩ := Household.C79_cash hE hacc hr
  have hg : ∀ k a, ∃ g, k < n → Gain ((fin k).w.accounts a) g := by
    intro k a
    by_cases hk : k < n
    · obtain ⟨b, r, -, hret, -⟩ := Account.returns_reconcile ((hr.books hE hacc k hk.le).acct a)
      exact ⟨max r 0, fun _ => ⟨r, hret, rfl⟩⟩
    · exact ⟨0, fun h => absurd h hk⟩
  choose gain hgain using hg
  have hz : ∀ k, ∃ real, k < n → Realized F kind base (fin k).w.accounts real := by
    intro k
    by_cases hk' : k < n
    · have h := h1 k hk'
      change canadaOwing F C (F.initial + k) (fin k).w.accounts = _ at h
      unfold canadaOwing at h
      cases hm : (List.range F.size).mapM (payer F (F.initial + k) (fin k).w.accounts) with
      | error e => rw [hm] at h; cases h
      | ok ps =>
        obtain ⟨real, hreal⟩ := realized_of_asked hk fun i hi a ha => payers_ask hm hi ha
        exact ⟨real, fun _ => hreal⟩
    · exact ⟨fun _ => 0, fun h => absurd h hk'⟩
  choose real hreal using hz
  refine ⟨fun k => (fin k).w.living, owing, gain, real, ?_, fun k a hk => hgain k a hk,
    fun k hk => hreal k hk, ?_, ?_, ?_⟩
  · intro k hk
    obtain ⟨ps, h4, h5⟩ := C120_strategy_is_told hw hR k (start k).w.accounts
    exact ⟨ps, h4, by rw [← h5]; exact h3 k hk.le⟩
  · intro k hk'
    have h4 := C123_tax_on_accounts hw (hf k hk') (hp k hk') hs hk hC (fin k).w.accounts
      (gain := gain k) (fun a => hgain k a hk') (hreal k hk')
    rw [h1 k hk'] at h4
    simpa using h4
  · rw [h2]
    apply List.map_congr_left
    intro k _
    have := C120_income hw k
    change Household.incomeIn (canadaHousehold F C) (F.initial + k) = _ at this
    rw [this]
    rfl
  · intro k hk'
    obtain ⟨-, ⟨x, g1, g2, -⟩, -, -, -⟩ := Household.C79_new_year hE (hr.books hE hacc k hk'.le)
      (hr.step hk'.le) (hr.next k hk')
    obtain ⟨o, g3, g4⟩ := hr.adjusted hE hk'.le g1
    rw [h1 k hk'] at g3
    simp only [Except.ok.injEq] at g3
    rw [g2, g4, ← g3]
    unfold Household.adjusted keptFrom
    have a1 := employers_withhold hw k
    have a2 := accounts_withhold hk (F.initial + k) (fin k).w
    change Household.withheldIn (canadaHousehold F C) (F.initial + k) = _ at a1
    change ∑ p ∈ ((canadaHousehold F C).people.flatMap fun i =>
        ((canadaHousehold F C).earner i (F.initial + k)).accounts).toFinset,
      Household.taxOf (canadaHousehold F C) (fin k).w p = _ at a2
    rw [everybody_add, a1, a2]
    ring

/-- **C123.** The forecast of a Canadian family: the report shows, for every year but the last, the tax of
`C123_tax_on_accounts`; and when the new year begins, what was withheld by employers and from RRSPs comes
back and that tax is paid. -/
theorem C123_report {F : Family K} {C : Canada K} (hE : Sound (canadaHousehold F C))
    {c : ℕ → Contract K} (hw : Wages F c)
    {R : ℤ} (hR : FirstRetirement F c R) {kind : ℕ → Kind} {base : ℕ → K} (hk : Kinds F kind base)
    (hC : ∀ a, C.rrsp a = true ↔ kind a = .rrsp) (hs : Together F) {n : ℕ} {fed prov : ℕ → Rules K}
    (hf : ∀ k < n, InForce C.federal (F.initial + k) (fed k))
    (hp : ∀ k < n, InForce C.provincial (F.initial + k) (prov k)) {accounts : ℕ → Acct K}
    (hacc : ∀ a, Account.Reachable (accounts a))
    (hyear : ∀ a ∈ holdings (canadaHousehold F C), (accounts a).year = F.initial) {s : FS K (Home ℕ ℕ K)}
    (h : forecast (canadaHousehold F C) F.initial (scenarioYears F.initial (n + 1)) accounts = .ok s) :
    ∃ (start fin : ℕ → FS K (Home ℕ ℕ K)) (living tax : ℕ → K) (gain real : ℕ → ℕ → K),
      Run (canadaHousehold F C) F.initial n accounts s start fin ∧
      (∀ k < n, ∃ ps, Informed F c k ps ∧ F.plan.call (balances (start k).w.accounts) (some ps)
        (some (F.initial + k)) (some R) = .ok (living k)) ∧
      (∀ k a, k < n → Gain ((fin k).w.accounts a) (gain k a)) ∧
      (∀ k < n, Realized F kind base (fin k).w.accounts (real k)) ∧
      (∀ k < n, tax k = everybody F fun i =>
        owes F C (fed k) (declared F c kind k (fin k).w.accounts (gain k) (real k)) i
          + owes F C (prov k) (declared F c kind k (fin k).w.accounts (gain k) (real k)) i) ∧
      s.w.report = ((List.range n).map fun (k : ℕ) =>
        { income := everybody F fun i => takesHome (c i) F.initial k
          livingExpenses := living k
          savings := max ((everybody F fun i => takesHome (c i) F.initial k) - living k) 0
          principal := (F.assets.map fun a => opening ((start k).w.accounts a)).sum
          withdrawals := .fin (-(cash (start k) + (everybody F fun i => takesHome (c i) F.initial k)
            - living k - moved ((fin k).w.sub .saving).txs))
          tax := tax k }) ∧
      ∀ k < n, cash (start (k + 1))
        = cash (fin k) + keptFrom F c kind k (fin k).w.accounts - tax k := by
  obtain ⟨start, fin, hr⟩ := Household.C79_run (E := canadaHousehold F C) hyear h
  obtain ⟨living, tax, gain, real, h1⟩ := canada_report_of_run hE hw hR hk hC hs hf hp hacc hr
  exact ⟨start, fin, living, tax, gain, real, hr, h1⟩

/-! ### From beginning to end -/

section strategies

variable [FloorRing K]

open Forecaster.Household (Planner onSide Careful incomeIn world yearOf)
open Forecaster.CashFlow

/-- Specification: a family as in C122, with the rules of both jurisdictions known for all years instead of
the tables of a `Tax` object. -/
structure Canadian (F : Family K) (C : Canada K) (c : ℕ → Contract K) (fed prov : ℤ → Rules K)
    (owed : ℕ → Bool) (kind : ℕ → Kind) (base : ℕ → K) : Prop where
  asset : ∀ a, kind a = .taxable → owed a = false
  people : F.size ≠ 0
  wages : Wages F c
  together : Together F
  paid : ∀ i, Dated (F.member i).timing ∧ Dict.total (F.member i).timing ≠ 0
  timing : Dated (F.default .income) ∧ Dict.total (F.default .income) ≠ 0
  refund : Dated F.refund ∧ Dict.total F.refund ≠ 0
  payment : Dated F.payment ∧ Dict.total F.payment ≠ 0
  kinds : Kinds F kind base
  rrsps : ∀ a, C.rrsp a = true ↔ kind a = .rrsp
  plan : ∃ s, F.plan = .strategy s ∧ Simple s
  federal : ∀ y, InForce C.federal y (fed y)
  provincial : ∀ y, InForce C.provincial y (prov y)
  tells : ∀ (a : Acct K) b v, IsGrowth a.A → 0 < b → 0 < v → ∃ r, F.ttv a b v = .ok r
  saving : Planner owed (household F).limits (holdings (household F)) F.saving
  withdrawal : Planner owed (household F).limits F.assets F.withdrawal

section
variable {F : Family K} {C : Canada K} {c : ℕ → Contract K} {fed prov : ℤ → Rules K}
  {owed : ℕ → Bool} {kind : ℕ → Kind} {base : ℕ → K}

theorem Canadian.careful (h : Canadian F C c fed prov owed kind base) :
    Careful owed (canadaHousehold F C) := by
  obtain ⟨S, info, order, T, fuel, h1, h2⟩ := h.saving
  obtain ⟨S', info', order', T', fuel', h1', h2'⟩ := h.withdrawal
  refine ⟨?_, fun i _ => h.paid i, h.timing, h.refund, h.payment,
    Household.C95_strategies_prudent h1, Household.C95_strategies_prudent h1'⟩
  show List.range F.size ≠ []
  simpa using h.people

theorem Canadian.owes (h : Canadian F C c fed prov owed kind base) (y : ℤ)
    (acc : ℕ → Acct K) (hacc : ∀ a, Account.Inv (acc a))
    (hgain : ∀ a ∈ holdings (household F), kind a = .taxable →
      ∃ g, Taxable.gainOf F.initial (base a) (acc a) = .ok g) : ∃ x, canadaOwing F C y acc = .ok x := by
  obtain ⟨inc, ded, ans⟩ := kinds_answers h.kinds hacc hgain
  exact ⟨_, canadaOwing_eq (h.federal y) (h.provincial y) h.together acc (inc := inc) (ded := ded)
    (cred := fun _ => 0) (fun i _ a hm => (ans i a hm).1) (fun i _ a hm => (ans i a hm).2.1)
    (fun i _ a hm => (ans i a hm).2.2) (fun i _ => by simp [overAccounts]) rfl⟩

/-- **C123.** The forecast of a Canadian family completes exactly if, in every year, the members' take-home
pay does not come to nothing: neither jurisdiction's taxes, credits or limits stop it. -/
theorem C123_completes (h : Canadian F C c fed prov owed kind base)
    {accounts : ℕ → Acct K} (ha : Starts F accounts) (hi : Invested F kind accounts) (n : ℕ) :
    (∃ s, forecast (canadaHousehold F C) F.initial (scenarioYears F.initial (n + 1)) accounts = .ok s) ↔
      ∀ k : ℕ, k ≤ n → (everybody F fun i => takesHome (c i) F.initial k) ≠ 0 := by
  obtain ⟨S, info, order, T, fuel, h1, h2⟩ := h.saving
  obtain ⟨S', info', order', T', fuel', h1', h2'⟩ := h.withdrawal
  obtain ⟨s, hs, hsimple⟩ := h.plan
  have main := Household.household_completes_if (E := canadaHousehold F C) (owed := owed) h1 h2 h1' h2'
    h.careful.people h.careful.paid h.timing h.refund h.payment
    (fun y acc _ => expenses_answer h.people hs hsimple y acc)
    (fun y acc hi hg => h.owes y acc (fun a => (hi a).1) hg) h.tells (initial := F.initial) (n := n)
    ha.sane ha.year ha.fresh ha.growth ha.rate
    (careful_carries (E := canadaHousehold F C) (base := base) rfl h.careful h.asset ha hi)
    (fun a hm hk => ⟨Taxable.priced_init (ha.year a hm), hi.opens a hm hk⟩)
  rw [main]
  constructor
  · intro hh k hk
    rw [← C120_income h.wages k]
    exact hh k hk
  · intro hh k hk
    have := hh k hk
    rw [← C120_income h.wages k] at this
    exact this

/-- **C123.** As long as the members take something home in every year, the forecast of a Canadian family
whose rates never fall completes; no account is ever overdrawn and no debt overpaid; the report shows the
taxes of `C123_tax_on_accounts`; and when a new year begins, what was withheld by employers and from RRSPs
comes back and those taxes are paid. -/
theorem C123_forecast (h : Canadian F C c fed prov owed kind base)
    {accounts : ℕ → Acct K} (ha : Starts F accounts) {n : ℕ}
    (hpaid : ∀ k : ℕ, k ≤ n → (everybody F fun i => takesHome (c i) F.initial k) ≠ 0)
    (hopen : ∀ a ∈ holdings (household F), onSide (owed a) (opening (accounts a)))
    (hrate : ∀ a ∈ holdings (household F), ∀ y, Monotone ((accounts a).growth y) ∨
      owed a = false ∧ Antitone ((accounts a).growth y))
    (hrise : ∀ a ∈ holdings (household F), ∀ y t, 0 ≤ t → t ≤ 1 →
      (accounts a).growth y t ≤ (accounts a).growth (y + 1) t)
    {R : ℤ} (hR : FirstRetirement F c R) :
    ∃ (s : FS K (Home ℕ ℕ K)) (start fin : ℕ → FS K (Home ℕ ℕ K)) (living tax : ℕ → K)
      (gain real : ℕ → ℕ → K),
      forecast (canadaHousehold F C) F.initial (scenarioYears F.initial (n + 1)) accounts = .ok s ∧
      Run (canadaHousehold F C) F.initial n accounts s start fin ∧
      (∀ k ≤ n, ∀ a ∈ holdings (household F), ∀ t, 0 ≤ t → t ≤ 1 →
        ∃ b, balanceAtTime ((fin k).w.accounts a) (.num t) none = .ok b ∧ onSide (owed a) b) ∧
      (∀ k < n, ∃ ps, Informed F c k ps ∧ F.plan.call (balances (start k).w.accounts) (some ps)
        (some (F.initial + k)) (some R) = .ok (living k)) ∧
      (∀ k a, k < n → Gain ((fin k).w.accounts a) (gain k a)) ∧
      (∀ k < n, Realized F kind base (fin k).w.accounts (real k)) ∧
      (∀ k < n, tax k = everybody F fun i =>
        owes F C (fed (F.initial + k)) (declared F c kind k (fin k).w.accounts (gain k) (real k)) i
          + owes F C (prov (F.initial + k)) (declared F c kind k (fin k).w.accounts (gain k) (real k)) i) ∧
      s.w.report = ((List.range n).map fun (k : ℕ) =>
        { income := everybody F fun i => takesHome (c i) F.initial k
          livingExpenses := living k
          savings := max ((everybody F fun i => takesHome (c i) F.initial k) - living k) 0
          principal := (F.assets.map fun a => opening ((start k).w.accounts a)).sum
          withdrawals := .fin (-(cash (start k) + (everybody F fun i => takesHome (c i) F.initial k)
            - living k - moved ((fin k).w.sub .saving).txs))
          tax := tax k }) ∧
      ∀ k < n, cash (start (k + 1))
        = cash (fin k) + keptFrom F c kind k (fin k).w.accounts - tax k := by
  obtain ⟨s, hs⟩ := (C123_completes h ha ⟨fun a hm hk => by
    have := hopen a hm
    rw [h.asset a hk] at this
    simpa [onSide] using this, fun a hm _ => hrise a hm⟩ n).2 hpaid
  obtain ⟨start, fin, hr⟩ := Household.C79_run (E := canadaHousehold F C) ha.year hs
  have hc := Household.Run.checked h.careful (R := fun _ => True) (fun _ _ _ _ _ => trivial) ha.sane
    ha.growth hr
  let F' : Family K := { F with
    saving := fun y q => Household.only (fun p => Dict.WF p ∧ True) (F.saving y q)
    withdrawal := fun y q => Household.only Household.Usable (F.withdrawal y q) }
  have e : Household.checked (fun _ => True) (canadaHousehold F C) = canadaHousehold F' C := rfl
  have hsound := Household.checked_sound h.careful (fun _ => True)
  rw [e] at hc hsound
  obtain ⟨living, tax, gain, real, q1, q2, qr, qt, q3, q4⟩ := canada_report_of_run (F := F') (C := C) hsound
    (c := c) h.wages hR (kind := kind) (base := base) h.kinds h.rrsps h.together (n := n)
    (fed := fun k => fed (F.initial + k)) (prov := fun k => prov (F.initial + k))
    (fun k _ => h.federal _) (fun k _ => h.provincial _) ha.sane hc
  exact ⟨s, start, fin, living, tax, gain, real, hs, hr,
    Household.C95_solvent h.careful ha.sane ha.growth ha.fresh hopen hrate hrise hr, q1, q2, qr, qt, q3, q4⟩

end

end strategies

/-! ### The shipped rules -/

/-- Specification: the shipped rules, in dollars that are worth `1 / r` dollars of 2017. -/
def shippedRules (pl : Shipped.Place) (r : K) : Rules K :=
  ⟨Shipped.tableOf pl r, Shipped.basic pl * r, Shipped.atRate pl, Shipped.pension pl * r,
    Shipped.spousal pl * r⟩

/-- A jurisdiction with the shipped tables, after a history of questions. -/
def shippedLaw (pl : Shipped.Place) (t : Tax.Tax K) (qs : List (Tax.Query K)) : Law K :=
  ⟨Tax.run t qs, Shipped.pensionCap pl, Shipped.spousalAmount pl⟩

theorem shipped_in_force (pl : Shipped.Place) {adj : Adjust K} {idx : ℤ → K} (I : Shipped.Index adj idx)
    {t : Tax.Tax K} (ht : Shipped.jurisdiction pl adj = .ok t) (qs : List (Tax.Query K))
    (hqs : ∀ q ∈ qs, q.AccumSafe (Shipped.taxBrackets pl)) (y : ℤ) :
    InForce (shippedLaw pl t qs) y (shippedRules pl (idx y / idx 2017)) := by
  have hr0 : 0 < idx y / idx 2017 := div_pos (I.pos _) (I.pos _)
  have S := Shipped.setting pl I
  obtain ⟨o, B0, t', h1, h2, h3⟩ := Tax.C30_table S ht qs hqs y
  obtain ⟨B, hB, hwf, hsc⟩ := Shipped.brackets_eq (K := K) pl
  rw [hB, Shipped.nearest_single] at h1
  cases h1
  rw [hB] at h2
  simp only [Dict.get?, if_true, Option.some.injEq] at h2
  subst h2
  rw [hsc] at h3
  have hone : ∀ v : K, Tax.adjusted [(2017, v)] (Tax.run t qs).adjust y = .ok (v * (idx y / idx 2017)) := by
    intro v
    unfold Tax.adjusted
    rw [Shipped.run_adjust pl I ht qs hqs, Shipped.extend_single I]
    rfl
  refine ⟨⟨_, _, _, _, _, qs, S.args, ht, rfl⟩, ⟨t', h3⟩, Shipped.deduction_eq pl I ht qs hqs y, ?_, ?_,
    ?_, Shipped.table_nonneg pl _, by cases pl <;> norm_num [shippedRules, Shipped.atRate],
    mul_nonneg (by cases pl <;> norm_num [Shipped.pension]) hr0.le⟩
  · refine (Tax.C30_deduction_and_credit_rate S ht qs hqs y).2.2.2 2017 (Shipped.atRate pl) ?_ ?_
    · cases pl <;> exact Shipped.nearest_single _ _ _
    · cases pl <;> simp [Shipped.creditRate, Shipped.atRate, Dict.get?]
  · have : (shippedLaw pl t qs).pensionCap = [(2017, Shipped.pension pl)] := by cases pl <;> rfl
    rw [this]; exact hone _
  · have : (shippedLaw pl t qs).spousalAmount = [(2017, Shipped.spousal pl)] := by cases pl <;> rfl
    rw [this]; exact hone _

/-- **C123.** The shipped rules are those of C75, with every amount of 2017 adjusted to the year by the
price index, whatever the tax object has been asked before; and what a member owes under them is what C75
says, in dollars of 2017. -/
theorem C123_shipped {adj : Adjust K} {idx : ℤ → K} (I : Shipped.Index adj idx) {f p : Tax.Tax K}
    (ht : Shipped.taxCanada adj = .ok (f, p)) (qf qp : List (Tax.Query K))
    (hqf : ∀ q ∈ qf, q.AccumSafe (Shipped.taxBrackets .federal))
    (hqp : ∀ q ∈ qp, q.AccumSafe (Shipped.taxBrackets .bc)) (y : ℤ) :
    let r := idx y / idx 2017
    InForce (shippedLaw .federal f qf) y (shippedRules .federal r) ∧
    InForce (shippedLaw .bc p qp) y (shippedRules .bc r) ∧
    ∀ (pl : Shipped.Place) (F : Family K) (C : Canada K) (D : Return K) (i : ℕ),
      owes F C (shippedRules pl r) D i = r * Shipped.tax2017 pl (D.income i / r) (D.deduction i / r)
        (D.credit i / r) (D.pension i / r) (match (F.member i).spouse with
          | none => 0
          | some j => Shipped.spousal2017 pl ((D.income i - D.deduction i) / r - Shipped.basic pl)
              ((D.income j - D.deduction j) / r - Shipped.basic pl) (C.idLt i j)) := by
  intro r
  have hr0 : 0 < r := div_pos (I.pos _) (I.pos _)
  simp only [Shipped.taxCanada, Tax.bind_ok_iff, Except.ok.injEq, Prod.mk.injEq] at ht
  obtain ⟨f', hf, p', hp, rfl, rfl⟩ := ht
  refine ⟨shipped_in_force .federal I hf qf hqf y, shipped_in_force .bc I hp qp hqp y, ?_⟩
  intro pl F C D i
  have key : spousalOf F C (shippedRules pl r) D i = r * (match (F.member i).spouse with
      | none => 0
      | some j => Shipped.spousal2017 pl ((D.income i - D.deduction i) / r - Shipped.basic pl)
          ((D.income j - D.deduction j) / r - Shipped.basic pl) (C.idLt i j)) := by
    unfold spousalOf
    cases (F.member i).spouse with
    | none => simp
    | some j =>
      simp only []
      have e : ∀ m, netIncomeOf (shippedRules pl r) D m
          = r * ((D.income m - D.deduction m) / r - Shipped.basic pl) := by
        intro m
        show D.income m - (Shipped.basic pl * r + D.deduction m) = _
        field_simp
        ring
      rw [e i, e j]
      unfold Shipped.spousal2017
      generalize (D.income i - D.deduction i) / r - Shipped.basic pl = u
      generalize (D.income j - D.deduction j) / r - Shipped.basic pl = w
      have c1 : (r * u < r * w ∨ r * u = r * w ∧ C.idLt i j = true) ↔ (u < w ∨ u = w ∧ C.idLt i j = true) := by
        rw [mul_lt_mul_iff_right₀ hr0, mul_right_inj' hr0.ne']
      by_cases g : u < w ∨ u = w ∧ C.idLt i j = true
      · rw [if_pos g, if_pos (c1.2 g), mul_zero]
      · rw [if_neg g, if_neg fun h => g (c1.1 h), mul_max_of_nonneg _ _ hr0.le, mul_zero]
        congr 1
        show Shipped.spousal pl * r - r * w = _
        ring
  unfold owes
  rw [key]
  generalize (match (F.member i).spouse with
      | none => (0 : K)
      | some j => Shipped.spousal2017 pl ((D.income i - D.deduction i) / r - Shipped.basic pl)
          ((D.income j - D.deduction j) / r - Shipped.basic pl) (C.idLt i j)) = sc
  show max (Tax.bracketTax (Tax.ascending (Shipped.tableOf pl r))
      (D.income i - Shipped.basic pl * r - 2 * D.deduction i)
    - (2 * D.credit i + min (D.pension i) (Shipped.pension pl * r) + r * sc) * Shipped.atRate pl) 0 = _
  rw [Shipped.bracketTax_table pl hr0]
  unfold Shipped.tax2017
  rw [mul_max_of_nonneg _ _ hr0.le, mul_zero]
  have e1 : (D.income i - Shipped.basic pl * r - 2 * D.deduction i) / r
      = D.income i / r - Shipped.basic pl - 2 * (D.deduction i / r) := by field_simp
  have e2 : min (D.pension i) (Shipped.pension pl * r) = r * min (D.pension i / r) (Shipped.pension pl) := by
    rw [mul_min_of_nonneg _ _ hr0.le]
    congr 1
    · field_simp
    · ring
  have e3 : 2 * D.credit i = r * (2 * (D.credit i / r)) := by field_simp
  rw [e1, e2, e3]
  congr 1
  ring

/-! ### Families -/

section examples

/-- A federal and a provincial jurisdiction; account 0 is an RRSP. -/
def exCanada : Canada ℚ :=
  ⟨⟨Tax.sampleTax, [(2000, 30)], [(2000, 70)]⟩, ⟨Tax.sampleTax, [(2000, 10)], [(2000, 300)]⟩,
    fun a => a == 0, fun i j => i < j⟩

/-- The report of four years of the family of C122. In 2000, the first one owes 152 - 30/2 federally, with a
pension credit of 30, and 152 - (10 + 445/3)/2 provincially, with a pension credit of 10 and a spousal
credit of 300 - 455/3; the second one owes 61/3 twice. In 2002, the second one claims a retired spouse. -/
theorem exCanada_report : (forecast (canadaHousehold exVaried exCanada) 2000 (scenarioYears 2000 4)
      exAccounts).map
      (fun s => (cash s, s.w.report.map fun r => (r.income, r.livingExpenses, r.principal, r.tax)))
    = .ok (883, [(1000, 500, 680, 501 / 2), (1080, 540, 1627 / 2, 581 / 2),
      (200, 100, 19127 / 20, 0)]) := by decide +kernel

/-- The rules of the two jurisdictions in the example. -/
def exRulesOf (pension spousal : ℚ) : Rules ℚ :=
  ⟨[(0, 1 / 10), (1000, 3 / 10), (100, 1 / 5)], 50, 1 / 2, pension, spousal⟩

theorem exCanada_rules (pension spousal : ℚ) (h : 0 ≤ pension) : ∀ k < 3,
    InForce ⟨Tax.sampleTax, [(2000, pension)], [(2000, spousal)]⟩ (2000 + (k : ℕ))
      (exRulesOf pension spousal) := by
  have same : ∀ (v : ℚ) (y : ℤ), Tax.sampleAdjust y 2000 = .ok 1 →
      Tax.adjusted [(2000, v)] Tax.sampleAdjust y = .ok v := by
    intro v y hy
    unfold Tax.adjusted extendInflationAdjusted
    by_cases e : y = 2000
    · subst e; rfl
    · simp [Dict.mapVals, Dict.get?, Shipped.nearest_single, hy, e, Ne.symm e, Val.scale]
  intro k hk
  obtain ⟨t1, t2, ⟨cr, t3, t4⟩, t5⟩ := exFamily_tables k hk
  have hcr : Tax.creditRate Tax.sampleTax (2000 + (k : ℕ)) = .ok (1 / 2) := by
    have hk' : k = 0 ∨ k = 1 ∨ k = 2 := by omega
    rcases hk' with rfl | rfl | rfl <;> decide +kernel
  have hadj : Tax.sampleAdjust (2000 + (k : ℕ)) 2000 = .ok 1 := by
    have hk' : k = 0 ∨ k = 1 ∨ k = 2 := by omega
    rcases hk' with rfl | rfl | rfl <;> decide +kernel
  exact ⟨Tax.sample_reachable [], t1, t2, hcr, same _ _ hadj, same _ _ hadj, t5, by norm_num [exRulesOf], h⟩

/-- The hypotheses of `C123_report` are met. -/
example : ∃ s, forecast (canadaHousehold exVaried exCanada) 2000 (scenarioYears 2000 4) exAccounts = .ok s ∧
    Sound (canadaHousehold exVaried exCanada) ∧ Wages exVaried exContract ∧
    FirstRetirement exVaried exContract 2001 ∧ (Kinds exVaried exKind fun _ => 40) ∧
    (∀ a, exCanada.rrsp a = true ↔ exKind a = .rrsp) ∧ Together exVaried ∧
    (∀ k < 3, InForce exCanada.federal (exVaried.initial + (k : ℕ)) (exRulesOf 30 70)) ∧
    (∀ k < 3, InForce exCanada.provincial (exVaried.initial + (k : ℕ)) (exRulesOf 10 300)) ∧
    (∀ a, Account.Reachable (exAccounts a)) ∧ (∀ a, (exAccounts a).year = exVaried.initial) := by
  cases e : forecast (canadaHousehold exVaried exCanada) 2000 (scenarioYears 2000 4) exAccounts with
  | error e' =>
    have h := exCanada_report
    rw [e] at h
    cases h
  | ok s =>
    refine ⟨s, rfl, { exVaried_sound with }, exFamily_wages, exFamily_retirement, exVaried_kinds,
      fun a => ?_, fun i hi j hj => ?_, exCanada_rules 30 70 (by norm_num),
      exCanada_rules 10 300 (by norm_num), ?_, ?_⟩
    · show (a == 0) = true ↔ _
      unfold exKind
      by_cases h0 : a = 0
      · simp [h0]
      · rw [if_neg h0]
        constructor
        · intro h; exact absurd (by simpa using h) h0
        · intro h; split_ifs at h
    · have e' : (some (1 - i) : Option ℕ) = some j := hj
      have : 1 - i = j := by simpa using e'
      show j < 2
      omega
    · intro a
      unfold exAccounts
      split
      · exact ⟨_, _, _, _, [], rfl⟩
      · exact ⟨_, _, _, _, [], rfl⟩
    · intro a
      unfold exAccounts
      split <;> rfl

/-- The couple of C122 under the shipped rules, with constant prices: all the hypotheses of `C123_forecast`
are met, for any number of years. -/
theorem real_canadian : ∃ t solve f p,
    let C : Canada ℝ := ⟨shippedLaw .federal f [], shippedLaw .bc p [], fun a => a == 0, fun i j => i < j⟩
    Shipped.taxCanada (fun _ _ => .ok (1 : ℝ)) = .ok (f, p) ∧
    Canadian (realVaried t solve) C realContract (fun _ => shippedRules .federal 1)
      (fun _ => shippedRules .bc 1) (fun a => a == 1)
      (fun a => if a = 0 then .rrsp else if a = 2 then .taxable else .plain) (fun _ => 40) ∧
    Starts (realVaried t solve) realAccounts ∧
    (∀ a ∈ holdings (household (realVaried t solve)), Household.onSide (a == 1) (opening (realAccounts a))) ∧
    (∀ a ∈ holdings (household (realVaried t solve)), ∀ y, Monotone ((realAccounts a).growth y)) ∧
    (∀ a ∈ holdings (household (realVaried t solve)), ∀ y t, 0 ≤ t → t ≤ 1 →
      (realAccounts a).growth y t ≤ (realAccounts a).growth (y + 1) t) ∧
    FirstRetirement (realVaried t solve) realContract 2025 := by
  obtain ⟨t, solve, B, pd, h, hs, ho, hm, hr, hf⟩ := real_varied
  obtain ⟨f, p, hfp⟩ := Shipped.C75_can_be_built (fun _ _ => .ok (1 : ℝ))
  have I : Shipped.Index (fun _ _ => .ok (1 : ℝ)) (fun _ => 1) :=
    ⟨fun _ => one_pos, fun _ _ => by rw [div_one]⟩
  have rules := fun y => C123_shipped I hfp [] [] (fun q hq => absurd hq (List.not_mem_nil))
    (fun q hq => absurd hq (List.not_mem_nil)) y
  simp only [div_one] at rules
  refine ⟨t, solve, f, p, hfp, ⟨h.asset, h.people, h.wages, fun i hi j hj => ?_, h.paid, h.timing, h.refund,
    h.payment, h.kinds, fun a => ?_, h.plan, fun y => (rules y).1, fun y => (rules y).2.1, h.tells, h.saving,
    h.withdrawal⟩, hs, ho, hm, hr, hf⟩
  · have e' : (some (1 - i) : Option ℕ) = some j := hj
    have : 1 - i = j := by simpa using e'
    show j < 2
    omega
  · show (a == 0) = true ↔ _
    by_cases h0 : a = 0
    · simp [h0]
    · rw [if_neg h0]
      constructor
      · intro h; exact absurd (by simpa using h) h0
      · intro h; split_ifs at h

end examples

end Forecaster.Family
