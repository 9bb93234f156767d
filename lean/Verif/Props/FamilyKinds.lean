import Verif.Model.FamilyKinds
import Verif.Props.FamilyStrategy
import Verif.Props.Registered
import Verif.Props.CapitalGain

/-!
# C122: the taxes of a family with RRSPs, TFSAs, taxable accounts and a residence

Specification vocabulary: `Kinds F kind` says what kind of account each account is and what the
cost base of taxable accounts is at the beginning; `Realized` says what gain they have realized; `over F kind k i f` is
a sum over the accounts of kind `k` that the `i`-th member owns; `takenOut x` and `paidIn x` are what has
been taken out of an account and paid into it in the year it is in; `Gain x g` (C120) says that it has
earned `g` in that year.
-/

set_option linter.unusedSectionVars false

namespace Forecaster.Family

open Forecaster Forecaster.Account Forecaster.Person
open Forecaster.Household (Home Run Sound forecast cash moved opening holdings)
open Forecaster.Forecast (FS scenarioYears)

variable {K : Type} [Field K] [LinearOrder K] [IsStrictOrderedRing K]

/-- Specification: the kinds of accounts. -/
inductive Kind
  | plain | rrsp | tfsa | residence | taxable
  deriving DecidableEq

/-- Specification: an account of that kind; what an RRSP withholds can always be worked out (see
`C122_withholding_is_known`); a taxable account was opened in `y0` with cost base `c0`. -/
def OfKind (y0 : ℤ) (c0 : K) (h : Holding K) : Kind → Prop
  | .plain => h = plainHolding h.owner
  | .rrsp => ∃ e conversion shared, h = rrspHolding h.owner h.limits e conversion shared ∧
      ∀ x, Account.Inv x → ∃ v, Registered.taxWithheld e conversion x (shared x) = .ok v
  | .tfsa => h = tfsaHolding h.owner h.limits
  | .residence => h = residenceHolding h.owner
  | .taxable => h = taxableHolding h.owner y0 c0

/-- Specification: every account of the family is of its kind. -/
def Kinds (F : Family K) (kind : ℕ → Kind) (base : ℕ → K) : Prop :=
  ∀ a, OfKind F.initial (base a) (F.holding a) (kind a)

/-- Specification: the taxable accounts of the family's members have realized the gains `real` in the year
they are in, worked out from their own histories (`C122_capital_gain`). -/
def Realized (F : Family K) (kind : ℕ → Kind) (base : ℕ → K) (acc : ℕ → Acct K) (real : ℕ → K) : Prop :=
  ∀ i < F.size, ∀ a ∈ owned F i, kind a = .taxable →
    Taxable.gainOf F.initial (base a) (acc a) = .ok (real a)

/-- Specification: what has been paid into an account this year. -/
def paidIn (x : Acct K) : K := ((Dict.vals x.txns).map fun v => max v 0).sum

/-- Specification: what has been taken out of an account this year. -/
def takenOut (x : Acct K) : K := ((Dict.vals x.txns).map fun v => max (-v) 0).sum

/-- Specification: the accounts of a kind that the `i`-th member owns. -/
def over (F : Family K) (kind : ℕ → Kind) (k : Kind) (i : ℕ) (f : ℕ → K) : K :=
  (((owned F i).filter fun a => decide (kind a = k)).map f).sum

theorem withhold_known {e : Registered.RrspEnv K} (hadj : ∀ y y', ∃ f, e.adj y y' = .ok f)
    (h1 : e.const.withholding ≠ []) (h2 : ∀ kv ∈ e.const.withholding, kv.2 ≠ []) (y : ℤ) (income : K) :
    ∃ v, Registered.withhold e y income = .ok v := by
  have got : ∀ {V : Type} {κ : Type} [DecidableEq κ] (d : Dict κ V) (k : κ), k ∈ Dict.keys d →
      ∃ v, Account.look d k = .ok v ∧ (k, v) ∈ d := by
    intro V κ _ d k hk
    obtain ⟨v, hv⟩ := Dict.mem_keys_iff.1 hk
    exact ⟨v, by unfold Account.look; rw [hv], Dict.mem_of_get? hv⟩
  unfold Registered.withhold
  cases hy : Inflation.nearestYear e.const.withholding y with
  | none => exact absurd ((Inflation.C09_nearest_year e.const.withholding y).1.1 hy) h1
  | some o =>
    simp only
    obtain ⟨rates, g1, g2⟩ := got _ _ (((Inflation.C09_nearest_year e.const.withholding y).2 o).1 hy).1
    obtain ⟨f, hf⟩ := hadj o y
    rw [g1, hf]
    simp only [bind, Except.bind]
    have hne : Dict.keys rates ≠ [] := by
      intro hh
      exact h2 _ g2 (List.map_eq_nil_iff.1 hh)
    cases hm : ((Dict.keys rates).filter fun b => decide (b < income * f)).max? with
    | some b =>
      simp only
      have := List.max?_mem hm
      obtain ⟨r, g3, -⟩ := got rates b (List.mem_filter.1 this).1
      rw [g3]; exact ⟨_, rfl⟩
    | none =>
      cases hm' : (Dict.keys rates).min? with
      | none => exact absurd (List.min?_eq_none_iff.1 hm') hne
      | some b =>
        simp only
        obtain ⟨r, g3, -⟩ := got rates b (List.min?_mem hm')
        rw [g3]; exact ⟨_, rfl⟩

/-- **C122.** What an RRSP withholds can always be worked out if its contributor's age is known, there is a
table of withholding rates without empty years, and the table of minimum withdrawals has a rate for the
age of 90 (as the shipped one has). -/
theorem C122_withholding_is_known {e : Registered.RrspEnv K} (hage : ∀ y, ∃ n, e.contributorAge y = .ok n)
    (hadj : ∀ y y', ∃ f, e.adj y y' = .ok f) (h1 : e.const.withholding ≠ [])
    (h2 : ∀ kv ∈ e.const.withholding, kv.2 ≠ []) (h3 : 90 ∈ Dict.keys e.const.withdrawalMin)
    (conversion : ℤ) (m : K) {x : Acct K} (hx : Account.Inv x) :
    ∃ v, Registered.taxWithheld e conversion x m = .ok v := by
  unfold Registered.taxWithheld
  split
  · exact withhold_known hadj h1 h2 _ _
  · have : ∃ d, Registered.minimumDistribution e conversion x = .ok d := by
      unfold Registered.minimumDistribution
      split
      · obtain ⟨n, hn⟩ := hage x.year
        obtain ⟨b, r, hb, -, -⟩ := Account.returns_reconcile hx
        rw [hn, hb]
        simp only [bind, Except.bind]
        cases hw : Dict.get? e.const.withdrawalMin n with
        | some f => exact ⟨_, rfl⟩
        | none =>
          simp only
          have hk : (Dict.keys e.const.withdrawalMin).max? ≠ none := by
            rw [Ne, List.max?_eq_none_iff]; exact List.ne_nil_of_mem h3
          have hv : (Dict.vals e.const.withdrawalMin).max? ≠ none := by
            rw [Ne, List.max?_eq_none_iff]
            intro hh
            have : e.const.withdrawalMin = [] := List.map_eq_nil_iff.1 hh
            rw [this] at h3
            exact absurd h3 (by simp [Dict.keys])
          obtain ⟨top, htop⟩ := Option.ne_none_iff_exists'.1 hk
          obtain ⟨f, hf⟩ := Option.ne_none_iff_exists'.1 hv
          rw [htop, hf]
          simp only
          split
          · exact ⟨_, rfl⟩
          · have : (90 - n : ℤ) ≠ 0 := by
              intro hz
              have : n = 90 := by omega
              rw [this] at hw
              exact Dict.get?_eq_none.1 hw h3
            rw [if_neg this]
            exact ⟨_, rfl⟩
      · exact ⟨_, rfl⟩
    obtain ⟨d, hd⟩ := this
    unfold Registered.minOutflowLimit
    rw [hd]
    simp only [bind, Except.bind]
    exact withhold_known hadj h1 h2 _ _

theorem sum_filter_eq {l : List ℕ} {kind : ℕ → Kind} (f : ℕ → K) (k : Kind) :
    (l.map fun a => if kind a = k then f a else 0).sum
      = ((l.filter fun a => decide (kind a = k)).map f).sum := by
  induction l with
  | nil => rfl
  | cons a l ih =>
    by_cases h : kind a = k
    · simp [h, ih]
    · simp [h, ih]

theorem sum_add (l : List ℕ) (f g : ℕ → K) :
    (l.map fun a => f a + g a).sum = (l.map f).sum + (l.map g).sum := by
  induction l with
  | nil => simp
  | cons a l ih => simp only [List.map_cons, List.sum_cons, ih]; ring

/-- What an account counts as income. -/
def incomeOf (kind : ℕ → Kind) (acc : ℕ → Acct K) (gain real : ℕ → K) (a : ℕ) : K :=
  ((if kind a = .plain then gain a else 0) + if kind a = .rrsp then takenOut (acc a) else 0)
    + if kind a = .taxable then real a / 2 else 0

/-- What the accounts of a family answer about taxes. -/
theorem kinds_answer {F : Family K} {kind : ℕ → Kind} {base : ℕ → K} (hk : Kinds F kind base)
    {acc : ℕ → Acct K} {gain real : ℕ → K} (hg : ∀ a, Gain (acc a) (gain a))
    (hz : Realized F kind base acc real) {i : ℕ} (hi : i < F.size) {a : ℕ} (ha : a ∈ owned F i) :
    (F.holding a).taxableIncome (acc a) = .ok (incomeOf kind acc gain real a) ∧
    (F.holding a).deduction (acc a) = .ok (if kind a = .rrsp then paidIn (acc a) else 0) ∧
    (F.holding a).credit (acc a) = .ok 0 := by
  have h := hk a
  refine ⟨?_, ?_, ?_⟩
  · unfold incomeOf
    cases e : kind a with
    | plain =>
      rw [e] at h
      rw [h]
      obtain ⟨r, e1, e2⟩ := hg a
      show Account.taxableIncome _ = _
      unfold Account.taxableIncome
      rw [e1, e2]
      simp [bind, Except.bind]
    | rrsp =>
      rw [e] at h
      obtain ⟨_, _, _, h, -⟩ := h
      rw [h]
      show Except.ok (Registered.rrspTaxableIncome (acc a)) = _
      rw [(Registered.C34_taxable_and_deductible (acc a)).1]
      simp [takenOut]
    | tfsa => rw [e] at h; rw [h]; simp [tfsaHolding]
    | residence => rw [e] at h; rw [h]; simp [residenceHolding, Taxable.residenceTaxableIncome]
    | taxable =>
      rw [e] at h; rw [h]
      simp [taxableHolding, hz i hi a ha e]
  · cases e : kind a with
    | plain => rw [e] at h; rw [h]; simp [plainHolding]
    | rrsp =>
      rw [e] at h
      obtain ⟨_, _, _, h, -⟩ := h
      rw [h]
      show Except.ok (Registered.rrspTaxDeduction (acc a)) = _
      rw [(Registered.C34_taxable_and_deductible (acc a)).2]
      simp [paidIn]
    | tfsa => rw [e] at h; rw [h]; simp [tfsaHolding]
    | residence => rw [e] at h; rw [h]; simp [residenceHolding]
    | taxable => rw [e] at h; rw [h]; simp [taxableHolding]
  · cases e : kind a with
    | plain => rw [e] at h; rw [h]; rfl
    | rrsp => rw [e] at h; obtain ⟨_, _, _, h, -⟩ := h; rw [h]; rfl
    | tfsa => rw [e] at h; rw [h]; rfl
    | residence => rw [e] at h; rw [h]; rfl
    | taxable => rw [e] at h; rw [h]; rfl

/-- What they come to for one member. -/
theorem kinds_sums (F : Family K) (kind : ℕ → Kind) (acc : ℕ → Acct K) (gain real : ℕ → K) (i : ℕ) :
    overAccounts F i (incomeOf kind acc gain real)
      = over F kind .plain i gain + over F kind .rrsp i (fun a => takenOut (acc a))
        + over F kind .taxable i (fun a => real a / 2) ∧
    overAccounts F i (fun a => if kind a = .rrsp then paidIn (acc a) else 0)
      = over F kind .rrsp i (fun a => paidIn (acc a)) := by
  unfold overAccounts over
  refine ⟨?_, ?_⟩
  · rw [← sum_filter_eq, ← sum_filter_eq, ← sum_filter_eq, ← sum_add, ← sum_add]
    rfl
  · rw [← sum_filter_eq]

/-- **C122.** What a family owes for the `k`-th year: from each member, the brackets of that year applied to
what the member has earned at work, what the member's plain accounts have earned, what has been taken out
of the member's RRSPs and half of the gains realized on the member's taxable accounts, less the personal
deduction and twice what has been paid into the member's RRSPs. What is in a TFSA or a residence does not matter. -/
theorem C122_tax {F : Family K} {c : ℕ → Contract K} (hw : Wages F c) {kind : ℕ → Kind}
    {base : ℕ → K} (hk : Kinds F kind base) {t : Tax.Tax K} (ht : F.tax = Tax.base t)
    (htr : Tax.Reachable t) {B : ℕ → Dict K K} {pd : ℕ → K} {k : ℕ}
    (hT : Tables t F.initial B pd k) (acc : ℕ → Acct K) {gain real : ℕ → K}
    (hg : ∀ a, Gain (acc a) (gain a)) (hz : Realized F kind base acc real) :
    (household F).owing (F.initial + k) acc = .ok (everybody F fun i =>
      max (Tax.bracketTax (Tax.ascending (B k))
        (earns (c i) F.initial k + over F kind .plain i gain
          + over F kind .rrsp i (fun a => takenOut (acc a)) + over F kind .taxable i (fun a => real a / 2)
          - pd k - 2 * over F kind .rrsp i (fun a => paidIn (acc a)))) 0) := by
  obtain ⟨⟨t', g1⟩, g2, ⟨cr, g3, g4⟩, g5⟩ := hT
  have zero : ∀ i, overAccounts F i (fun _ => (0 : K)) = 0 := by
    intro i; simp [overAccounts]
  have g6 := C120_tax hw ht htr k g1 g2 g3 g5 g4 acc
    (inc := incomeOf kind acc gain real)
    (ded := fun a => if kind a = .rrsp then paidIn (acc a) else 0) (cred := fun _ => 0)
    (fun _ hi _ ha => (kinds_answer hk hg hz hi ha).1) (fun _ hi _ ha => (kinds_answer hk hg hz hi ha).2.1)
    (fun _ hi _ ha => (kinds_answer hk hg hz hi ha).2.2) (fun i _ => (zero i).ge)
  rw [g6]
  unfold everybody assessed
  congr 2
  apply List.map_congr_left
  intro i _
  obtain ⟨h1, h2⟩ := kinds_sums F kind acc gain real i
  rw [h1, h2, zero]
  congr 1
  rw [mul_zero, zero_mul, sub_zero]
  congr 1
  ring

/-- Specification: everything that is withheld in the `k`-th year: by employers, and from what is taken
out of RRSPs. -/
def keptFrom (F : Family K) (c : ℕ → Contract K) (kind : ℕ → Kind) (k : ℕ) (acc : ℕ → Acct K) : K :=
  everybody F fun i => keptBack (c i) F.initial k
    + over F kind .rrsp i (fun a => (F.holding a).withheld (acc a))

/-- **C122.** What an RRSP withholds, if it can be worked out (C34). -/
theorem C122_rrsp_withholds (owner : ℕ) (limits : Acct K → Limits K) (e : Registered.RrspEnv K)
    (conversion : ℤ) (shared : Acct K → K) {x : Acct K} {v : K}
    (h : Registered.taxWithheld e conversion x (shared x) = .ok v) :
    (rrspHolding owner limits e conversion shared).withheld x = v := by
  simp [rrspHolding, h]

theorem everybody_add (F : Family K) (f g : ℕ → K) :
    (everybody F fun i => f i + g i) = everybody F f + everybody F g := by
  unfold everybody
  exact sum_add _ f g

/-- What the accounts withhold. -/
theorem accounts_withhold {F : Family K} {kind : ℕ → Kind} {base : ℕ → K} (hk : Kinds F kind base)
    (y : ℤ) (h : Home ℕ ℕ K) :
    ∑ p ∈ ((household F).people.flatMap fun i => ((household F).earner i y).accounts).toFinset,
        Household.taxOf (household F) h p
      = everybody F fun i => over F kind .rrsp i (fun a => (F.holding a).withheld (h.accounts a)) := by
  have nd : ((household F).people.flatMap fun i => ((household F).earner i y).accounts).Nodup := by
    rw [List.nodup_flatMap]
    constructor
    · intro i _
      show ((owned F i).map some).Nodup
      refine List.Nodup.map (Option.some_injective _) ?_
      exact (List.nodup_dedup _).filter _
    · refine List.nodup_range.imp ?_
      intro i j hij p hi hj
      obtain ⟨a, ha, rfl⟩ := List.mem_map.1 hi
      obtain ⟨b, hb, e⟩ := List.mem_map.1 hj
      simp only [Option.some.injEq] at e
      subst e
      have h1 := of_decide_eq_true (List.mem_filter.1 ha).2
      have h2 := of_decide_eq_true (List.mem_filter.1 hb).2
      exact hij (h1.symm.trans h2)
  rw [List.sum_toFinset _ nd, List.map_flatMap]
  show ((List.range F.size).flatMap fun i => ((owned F i).map some).map _).sum = _
  unfold everybody
  rw [List.flatMap_def, List.sum_flatten, List.map_map]
  congr 1
  apply List.map_congr_left
  intro i _
  show (((owned F i).map some).map _).sum = _
  unfold over
  rw [← sum_filter_eq, List.map_map]
  congr 1
  apply List.map_congr_left
  intro a _
  show (F.holding a).withheld (h.accounts a) = _
  have := hk a
  cases e : kind a with
  | plain => rw [e] at this; rw [this]; simp [plainHolding]
  | rrsp =>
    rw [e] at this
    simp
  | tfsa => rw [e] at this; rw [this]; simp [tfsaHolding]
  | residence => rw [e] at this; rw [this]; simp [residenceHolding]
  | taxable => rw [e] at this; rw [this]; simp [taxableHolding]

theorem employers_withhold {F : Family K} {c : ℕ → Contract K} (hw : Wages F c) (k : ℕ) :
    Household.withheldIn (household F) (F.initial + k)
      = everybody F fun i => keptBack (c i) F.initial k := by
  unfold Household.withheldIn everybody
  congr 1
  apply List.map_congr_left
  intro i hi
  exact withheld_eq hw (List.mem_range.1 hi) k

theorem sumM_asks {l : List ℕ} {f : ℕ → Except PyErr K} {v : K} (h : Expenses.sumM f l = .ok v)
    {a : ℕ} (ha : a ∈ l) : ∃ x, f a = .ok x := by
  induction l generalizing v with
  | nil => cases ha
  | cons b l ih =>
    unfold Expenses.sumM at h
    cases hb : f b with
    | error e => rw [hb] at h; cases h
    | ok x =>
      rcases List.mem_cons.1 ha with rfl | ha
      · exact ⟨x, hb⟩
      · rw [hb, ok_bind] at h
        cases hl : Expenses.sumM f l with
        | error e => rw [hl] at h; cases h
        | ok y => exact ih hl ha

theorem mapM_asks {α β : Type} {f : α → Except PyErr β} {l : List α} {v : List β} (h : l.mapM f = .ok v)
    {a : α} (ha : a ∈ l) : ∃ x, f a = .ok x := by
  induction l generalizing v with
  | nil => cases ha
  | cons b l ih =>
    rw [List.mapM_cons] at h
    cases hb : f b with
    | error e => rw [hb] at h; cases h
    | ok x =>
      rcases List.mem_cons.1 ha with rfl | ha
      · exact ⟨x, hb⟩
      · rw [hb, ok_bind] at h
        cases hl : l.mapM f with
        | error e => rw [hl] at h; cases h
        | ok y => exact ih hl ha

/-- Whoever asks the members of a family what they declare asks all of their accounts. -/
theorem payers_ask {F : Family K} {y : ℤ} {acc : ℕ → Acct K} {ps : List (Tax.Payer K)}
    (hm : (List.range F.size).mapM (payer F y acc) = .ok ps) {i : ℕ}
    (hi : i < F.size) {a : ℕ} (ha : a ∈ owned F i) : ∃ x, (F.holding a).taxableIncome (acc a) = .ok x := by
  obtain ⟨p, hp⟩ := mapM_asks hm (List.mem_range.2 hi)
  unfold payer at hp
  cases hs : sumOwned F (fun a => (F.holding a).taxableIncome (acc a)) i with
  | error e => rw [hs] at hp; cases hp
  | ok x => exact sumM_asks hs ha

/-- Whoever works out the tax of a family asks every account of its members. -/
theorem owing_asks {F : Family K} {y : ℤ} {acc : ℕ → Acct K} {v : K} (h : owing F y acc = .ok v) {i : ℕ}
    (hi : i < F.size) {a : ℕ} (ha : a ∈ owned F i) : ∃ x, (F.holding a).taxableIncome (acc a) = .ok x := by
  unfold owing at h
  cases hm : (List.range F.size).mapM (payer F y acc) with
  | error e => rw [hm] at h; cases h
  | ok ps => exact payers_ask hm hi ha

/-- If it is known what a member's accounts count as income, the gains of taxable accounts are known. -/
theorem realized_of_asked {F : Family K} {kind : ℕ → Kind} {base : ℕ → K} (hk : Kinds F kind base)
    {acc : ℕ → Acct K} (h : ∀ i < F.size, ∀ a ∈ owned F i, ∃ x, (F.holding a).taxableIncome (acc a) = .ok x) :
    ∃ real, Realized F kind base acc real := by
  have : ∀ a, ∃ g, (∃ i < F.size, a ∈ owned F i) → kind a = .taxable →
      Taxable.gainOf F.initial (base a) (acc a) = .ok g := by
    intro a
    cases e : Taxable.gainOf F.initial (base a) (acc a) with
    | ok g => exact ⟨g, fun _ _ => rfl⟩
    | error e' =>
      refine ⟨0, fun ⟨i, hi, ha⟩ ht' => ?_⟩
      obtain ⟨x, hx⟩ := h i hi a ha
      have h := hk a
      rw [ht'] at h
      rw [h] at hx
      simp [taxableHolding, e] at hx
  choose real hreal using this
  exact ⟨real, fun i hi a ha ht' => hreal a ⟨i, hi, ha⟩ ht'⟩

/-- The report in terms of a run of the forecast. -/
theorem kinds_report {F : Family K} (hE : Sound (household F)) {c : ℕ → Contract K} (hw : Wages F c)
    {R : ℤ} (hR : FirstRetirement F c R) {kind : ℕ → Kind} {base : ℕ → K} (hk : Kinds F kind base)
    {t : Tax.Tax K} (ht : F.tax = Tax.base t) (htr : Tax.Reachable t) {n : ℕ} {B : ℕ → Dict K K}
    {pd : ℕ → K} (hT : ∀ k < n, Tables t F.initial B pd k) {accounts : ℕ → Acct K}
    (hacc : ∀ a, Account.Reachable (accounts a))
    {s : FS K (Home ℕ ℕ K)} {start fin : ℕ → FS K (Home ℕ ℕ K)}
    (hr : Run (household F) F.initial n accounts s start fin) :
    ∃ (living tax : ℕ → K) (gain real : ℕ → ℕ → K),
      (∀ k < n, ∃ ps, Informed F c k ps ∧ F.plan.call (balances (start k).w.accounts) (some ps)
        (some (F.initial + k)) (some R) = .ok (living k)) ∧
      (∀ k a, k < n → Gain ((fin k).w.accounts a) (gain k a)) ∧
      (∀ k < n, Realized F kind base (fin k).w.accounts (real k)) ∧
      (∀ k < n, tax k = everybody F fun i => max (Tax.bracketTax (Tax.ascending (B k))
        (earns (c i) F.initial k + over F kind .plain i (gain k)
          + over F kind .rrsp i (fun a => takenOut ((fin k).w.accounts a))
          + over F kind .taxable i (fun a => real k a / 2)
          - pd k - 2 * over F kind .rrsp i (fun a => paidIn ((fin k).w.accounts a)))) 0) ∧
      s.w.report = ((List.range n).map fun (k : ℕ) =>
        { income := everybody F fun i => takesHome (c i) F.initial k
          livingExpenses := living k
          savings := max ((everybody F fun i => takesHome (c i) F.initial k) - living k) 0
          principal := (F.assets.map fun a => opening ((start k).w.accounts a)).sum
          withdrawals := .fin (-(cash (start k) + (everybody F fun i => takesHome (c i) F.initial k)
            - living k - moved ((fin k).w.sub .saving).txs))
          tax := tax k }) ∧
      ∀ k < n, cash (start (k + 1))
        = cash (fin k) + keptFrom F c kind k (fin k).w.accounts - tax k := by
  obtain ⟨owing, h1, h2⟩ := Household.C79_report hE hacc hr
  obtain ⟨_, h3, -⟩ := Household.C79_cash hE hacc hr
  have hg : ∀ k a, ∃ g, k < n → Gain ((fin k).w.accounts a) g := by
    intro k a
    by_cases hk : k < n
    · obtain ⟨b, r, -, hret, -⟩ := Account.returns_reconcile ((hr.books hE hacc k hk.le).acct a)
      exact ⟨max r 0, fun _ => ⟨r, hret, rfl⟩⟩
    · exact ⟨0, fun h => absurd h hk⟩
  choose gain hgain using hg
  have hz : ∀ k, ∃ real, k < n → Realized F kind base (fin k).w.accounts real := by
    intro k
    by_cases hk' : k < n
    · obtain ⟨real, hreal⟩ := realized_of_asked hk fun i hi a ha => owing_asks (h1 k hk') hi ha
      exact ⟨real, fun _ => hreal⟩
    · exact ⟨fun _ => 0, fun h => absurd h hk'⟩
  choose real hreal using hz
  refine ⟨fun k => (fin k).w.living, owing, gain, real, ?_, fun k a hk => hgain k a hk,
    fun k hk => hreal k hk, ?_, ?_, ?_⟩
  · intro k hk
    obtain ⟨ps, h4, h5⟩ := C120_strategy_is_told hw hR k (start k).w.accounts
    exact ⟨ps, h4, by rw [← h5]; exact h3 k hk.le⟩
  · intro k hk'
    have h4 := C122_tax hw hk ht htr (hT k hk') (fin k).w.accounts (gain := gain k)
      (fun a => hgain k a hk') (hreal k hk')
    rw [h1 k hk'] at h4
    simpa using h4
  · rw [h2]
    apply List.map_congr_left
    intro k _
    rw [C120_income hw k]
    rfl
  · intro k hk'
    obtain ⟨-, ⟨x, g1, g2, -⟩, -, -, -⟩ := Household.C79_new_year hE (hr.books hE hacc k hk'.le)
      (hr.step hk'.le) (hr.next k hk')
    obtain ⟨o, g3, g4⟩ := hr.adjusted hE hk'.le g1
    rw [h1 k hk'] at g3
    simp only [Except.ok.injEq] at g3
    rw [g2, g4, ← g3]
    unfold Household.adjusted keptFrom
    rw [everybody_add, employers_withhold hw, accounts_withhold hk]
    ring

/-- **C122.** The forecast of a family with plain accounts, RRSPs, TFSAs, taxable accounts and
residences: the report shows, for
every year but the last, the tax of `C122_tax`; and when the new year begins, what was withheld by
employers and from RRSPs comes back and that tax is paid. -/
theorem C122_report {F : Family K} (hE : Sound (household F)) {c : ℕ → Contract K} (hw : Wages F c)
    {R : ℤ} (hR : FirstRetirement F c R) {kind : ℕ → Kind} {base : ℕ → K} (hk : Kinds F kind base)
    {t : Tax.Tax K} (ht : F.tax = Tax.base t) (htr : Tax.Reachable t) {n : ℕ} {B : ℕ → Dict K K}
    {pd : ℕ → K} (hT : ∀ k < n, Tables t F.initial B pd k) {accounts : ℕ → Acct K}
    (hacc : ∀ a, Account.Reachable (accounts a))
    (hyear : ∀ a ∈ holdings (household F), (accounts a).year = F.initial) {s : FS K (Home ℕ ℕ K)}
    (h : forecast (household F) F.initial (scenarioYears F.initial (n + 1)) accounts = .ok s) :
    ∃ (start fin : ℕ → FS K (Home ℕ ℕ K)) (living tax : ℕ → K) (gain real : ℕ → ℕ → K),
      Run (household F) F.initial n accounts s start fin ∧
      (∀ k < n, ∃ ps, Informed F c k ps ∧ F.plan.call (balances (start k).w.accounts) (some ps)
        (some (F.initial + k)) (some R) = .ok (living k)) ∧
      (∀ k a, k < n → Gain ((fin k).w.accounts a) (gain k a)) ∧
      (∀ k < n, Realized F kind base (fin k).w.accounts (real k)) ∧
      (∀ k < n, tax k = everybody F fun i => max (Tax.bracketTax (Tax.ascending (B k))
        (earns (c i) F.initial k + over F kind .plain i (gain k)
          + over F kind .rrsp i (fun a => takenOut ((fin k).w.accounts a))
          + over F kind .taxable i (fun a => real k a / 2)
          - pd k - 2 * over F kind .rrsp i (fun a => paidIn ((fin k).w.accounts a)))) 0) ∧
      s.w.report = ((List.range n).map fun (k : ℕ) =>
        { income := everybody F fun i => takesHome (c i) F.initial k
          livingExpenses := living k
          savings := max ((everybody F fun i => takesHome (c i) F.initial k) - living k) 0
          principal := (F.assets.map fun a => opening ((start k).w.accounts a)).sum
          withdrawals := .fin (-(cash (start k) + (everybody F fun i => takesHome (c i) F.initial k)
            - living k - moved ((fin k).w.sub .saving).txs))
          tax := tax k }) ∧
      ∀ k < n, cash (start (k + 1))
        = cash (fin k) + keptFrom F c kind k (fin k).w.accounts - tax k := by
  obtain ⟨start, fin, hr⟩ := Household.C79_run (E := household F) hyear h
  obtain ⟨living, tax, gain, real, h1⟩ := kinds_report hE hw hR hk ht htr hT hacc hr
  exact ⟨start, fin, living, tax, gain, real, hr, h1⟩

/-! ### From beginning to end -/

/-- Whatever the accounts have been through, they answer about taxes, if the gains of taxable accounts are
known. -/
theorem kinds_answers {F : Family K} {kind : ℕ → Kind} {base : ℕ → K} (hkinds : Kinds F kind base)
    {acc : ℕ → Acct K} (hacc : ∀ a, Account.Inv (acc a))
    (hgain : ∀ a ∈ holdings (household F), kind a = .taxable →
      ∃ g, Taxable.gainOf F.initial (base a) (acc a) = .ok g) :
    ∃ inc ded : ℕ → K, ∀ i, ∀ a ∈ owned F i, (F.holding a).taxableIncome (acc a) = .ok (inc a) ∧
      (F.holding a).deduction (acc a) = .ok (ded a) ∧ (F.holding a).credit (acc a) = .ok 0 := by
  have hg : ∀ a, ∃ g, a ∈ holdings (household F) → (F.holding a).taxableIncome (acc a) = .ok g := by
    intro a
    by_cases ha : a ∈ holdings (household F)
    swap
    · exact ⟨0, fun h => absurd h ha⟩
    suffices hh : ∃ g, (F.holding a).taxableIncome (acc a) = .ok g by
      obtain ⟨g, hg⟩ := hh; exact ⟨g, fun _ => hg⟩
    have hk := hkinds a
    cases e : kind a with
    | plain =>
      rw [e] at hk
      obtain ⟨b, r, -, hret, -⟩ := Account.returns_reconcile (hacc a)
      refine ⟨max r 0, ?_⟩
      rw [hk]
      show Account.taxableIncome _ = _
      unfold Account.taxableIncome
      rw [hret]; rfl
    | rrsp => rw [e] at hk; obtain ⟨_, _, _, hk, -⟩ := hk; rw [hk]; exact ⟨_, rfl⟩
    | tfsa => rw [e] at hk; rw [hk]; exact ⟨_, rfl⟩
    | residence => rw [e] at hk; rw [hk]; exact ⟨_, rfl⟩
    | taxable =>
      rw [e] at hk
      obtain ⟨g, hg⟩ := hgain a ha e
      refine ⟨g / 2, ?_⟩
      rw [hk]
      show (do let g ← Taxable.gainOf F.initial (base a) (acc a); .ok (g / 2)) = _
      rw [hg]; rfl
  have hd : ∀ a, ∃ g, (F.holding a).deduction (acc a) = .ok g := by
    intro a
    have hk := hkinds a
    cases e : kind a with
    | plain => rw [e] at hk; rw [hk]; exact ⟨_, rfl⟩
    | rrsp => rw [e] at hk; obtain ⟨_, _, _, hk, -⟩ := hk; rw [hk]; exact ⟨_, rfl⟩
    | tfsa => rw [e] at hk; rw [hk]; exact ⟨_, rfl⟩
    | residence => rw [e] at hk; rw [hk]; exact ⟨_, rfl⟩
    | taxable => rw [e] at hk; rw [hk]; exact ⟨_, rfl⟩
  choose inc hinc using hg
  choose ded hded using hd
  refine ⟨inc, ded, fun i a hm => ⟨hinc a (List.mem_filter.1 hm).1, hded a, ?_⟩⟩
  have hk := hkinds a
  cases e : kind a with
  | plain => rw [e] at hk; rw [hk]; rfl
  | rrsp => rw [e] at hk; obtain ⟨_, _, _, hk, -⟩ := hk; rw [hk]; rfl
  | tfsa => rw [e] at hk; rw [hk]; rfl
  | residence => rw [e] at hk; rw [hk]; rfl
  | taxable => rw [e] at hk; rw [hk]; rfl

section strategies

variable [FloorRing K]

open Forecaster.Household (Planner onSide Careful incomeIn world yearOf)
open Forecaster.CashFlow

/-- Specification: a family as in C121, except that its accounts are of any of the kinds. -/
structure Varied (F : Family K) (c : ℕ → Contract K) (t : Tax.Tax K) (B : ℤ → Dict K K)
    (pd : ℤ → K) (owed : ℕ → Bool) (kind : ℕ → Kind) (base : ℕ → K) : Prop where
  asset : ∀ a, kind a = .taxable → owed a = false
  people : F.size ≠ 0
  wages : Wages F c
  paid : ∀ i, Dated (F.member i).timing ∧ Dict.total (F.member i).timing ≠ 0
  timing : Dated (F.default .income) ∧ Dict.total (F.default .income) ≠ 0
  refund : Dated F.refund ∧ Dict.total F.refund ≠ 0
  payment : Dated F.payment ∧ Dict.total F.payment ≠ 0
  kinds : Kinds F kind base
  plan : ∃ s, F.plan = .strategy s ∧ Simple s
  tax : F.tax = Tax.base t ∧ Tax.Reachable t
  tables : Tabled t B pd
  tells : ∀ (a : Acct K) b v, IsGrowth a.A → 0 < b → 0 < v → ∃ r, F.ttv a b v = .ok r
  saving : Planner owed (household F).limits (holdings (household F)) F.saving
  withdrawal : Planner owed (household F).limits F.assets F.withdrawal

/-- The families of C121 are families of this kind. -/
theorem Ordinary.varied {F : Family K} {c : ℕ → Contract K} {t : Tax.Tax K} {B : ℤ → Dict K K}
    {pd : ℤ → K} {owed : ℕ → Bool} (h : Ordinary F c t B pd owed) :
    Varied F c t B pd owed (fun _ => .plain) (fun _ => 0) :=
  ⟨fun _ e => (nomatch e), h.people, h.wages, h.paid, h.timing, h.refund, h.payment, (fun a => by
    obtain ⟨o, e⟩ := h.plain a
    show F.holding a = plainHolding (F.holding a).owner
    rw [e]; rfl), h.plan, h.tax, h.tables, h.tells, h.saving, h.withdrawal⟩

theorem Varied.careful {F : Family K} {c : ℕ → Contract K} {t : Tax.Tax K} {B : ℤ → Dict K K}
    {pd : ℤ → K} {owed : ℕ → Bool} {kind : ℕ → Kind} {base : ℕ → K} (h : Varied F c t B pd owed kind base) :
    Careful owed (household F) := by
  obtain ⟨S, info, order, T, fuel, h1, h2⟩ := h.saving
  obtain ⟨S', info', order', T', fuel', h1', h2'⟩ := h.withdrawal
  refine ⟨?_, fun i _ => h.paid i, h.timing, h.refund, h.payment,
    Household.C95_strategies_prudent h1, Household.C95_strategies_prudent h1'⟩
  show List.range F.size ≠ []
  simpa using h.people

/-- Whatever year it is, the tax can be worked out, if the gains of taxable accounts can. -/
theorem Varied.owes {F : Family K} {c : ℕ → Contract K} {t : Tax.Tax K} {B : ℤ → Dict K K}
    {pd : ℤ → K} {owed : ℕ → Bool} {kind : ℕ → Kind} {base : ℕ → K} (h : Varied F c t B pd owed kind base) (y : ℤ)
    (acc : ℕ → Acct K) (hacc : ∀ a, Account.Inv (acc a))
    (hgain : ∀ a ∈ holdings (household F), kind a = .taxable →
      ∃ g, Taxable.gainOf F.initial (base a) (acc a) = .ok g) : ∃ x, owing F y acc = .ok x := by
  obtain ⟨⟨t', g1⟩, g2, ⟨cr, g3, g4⟩, g5⟩ := h.tables y
  obtain ⟨inc, ded, ans⟩ := kinds_answers h.kinds hacc hgain
  exact ⟨_, owing_eq h.tax.1 h.tax.2 y g1 g2 g3 g5 g4 acc (inc := inc) (ded := ded)
    (cred := fun _ => 0) (fun i _ a hm => (ans i a hm).1) (fun i _ a hm => (ans i a hm).2.1)
    (fun i _ a hm => (ans i a hm).2.2) (fun i _ => by simp [overAccounts])⟩

/-- Specification: the taxable accounts are not overdrawn at the beginning, and their rates never fall. -/
structure Invested (F : Family K) (kind : ℕ → Kind) (accounts : ℕ → Acct K) : Prop where
  opens : ∀ a ∈ holdings (household F), kind a = .taxable → 0 ≤ opening (accounts a)
  rise : ∀ a ∈ holdings (household F), kind a = .taxable → ∀ y t, 0 ≤ t → t ≤ 1 →
    (accounts a).growth y t ≤ (accounts a).growth (y + 1) t

/-- No year takes more out of a taxable account than there is, so its gains can be worked out in all of
them. -/
theorem careful_carries {F : Family K} {E : Household.Env ℕ ℕ K} (hE : holdings E = holdings (household F))
    {owed : ℕ → Bool} (hc : Careful owed E) {kind : ℕ → Kind} {base : ℕ → K}
    (hasset : ∀ a, kind a = .taxable → owed a = false) {accounts : ℕ → Acct K} (ha : Starts F accounts)
    (hi : Invested F kind accounts) :
    Household.Carries E accounts
      (fun acc => ∀ a ∈ holdings E, kind a = .taxable →
        ∃ g, Taxable.gainOf F.initial (base a) (acc a) = .ok g)
      (fun acc => ∀ a ∈ holdings E, kind a = .taxable →
        Taxable.Priced F.initial (base a) (acc a) ∧ 0 ≤ opening (acc a)) := by
  have year : ∀ s s1 : FS K (Home ℕ ℕ K), Household.Underway E accounts s →
      (∀ a ∈ holdings E, kind a = .taxable →
        Taxable.Priced F.initial (base a) (s.w.accounts a) ∧ 0 ≤ opening (s.w.accounts a)) →
      Forecast.callSubforecasts (world E) s = .ok s1 →
      Household.Books s1.w s1.available ∧ ∀ a ∈ holdings E, kind a = .taxable →
        Taxable.Priced F.initial (base a) (s1.w.accounts a) ∧ Taxable.Covered (s1.w.accounts a) ∧
        Household.Sane false (s1.w.accounts a) ∧ 0 ≤ opening (s1.w.accounts a) ∧
        IsGrowth (s1.w.accounts a).A ∧ (s1.w.accounts a).growth = (accounts a).growth := by
    intro s s1 u hj h1
    have hA : ∀ a, IsGrowth (s.w.accounts a).A := fun a => by
      unfold Acct.A; rw [u.growth]; exact ha.growth a _
    obtain ⟨y1, -, y3, y4⟩ := Household.careful_year hc u.ready u.dates hA h1
    refine ⟨y1, fun a hm hk => ?_⟩
    obtain ⟨j1, j2⟩ := hj a hm hk
    have ho : owed a = false := hasset a hk
    have hkind : SubForecast.Kindly (Household.side (owed a) : K) (s.w.accounts a) := by
      unfold SubForecast.Kindly Acct.A
      rw [u.growth]
      rcases ha.rate a (hE ▸ hm) (s.w.accounts a).year with h | h
      · exact .inl h
      · exact .inr ⟨h, by rw [ho]; simp [Household.side], _,
          Household.opening_eq (u.ready.books.acct a), j2⟩
    have hon : onSide (owed a) (opening (s.w.accounts a)) := by rw [ho]; simpa [onSide] using j2
    have hs := y4 a (u.fresh a hm) hkind hon
    have same := y3 a
    obtain ⟨-, e1, e2, e3, e4, -⟩ := SubForecast.same_A same
    have hA1 : IsGrowth (s1.w.accounts a).A := by rw [(SubForecast.same_A same).1]; exact hA a
    have hop : opening (s1.w.accounts a) = opening (s.w.accounts a) := Household.opening_same same
    refine ⟨Taxable.priced_same j1 e1 e2 e3 e4, ?_, by rw [← ho]; exact hs,
      by rw [hop]; exact j2, hA1, e2.trans (u.growth a)⟩
    intro tm v hget _
    have hrng := (y1.acct a).tx.rng tm (Dict.mem_keys_iff.2 ⟨v, hget⟩)
    refine ⟨_, Household.balance_at (y1.acct a) hrng, ?_⟩
    have := hs.all_year (y1.acct a) hA1 (by rw [hop]; exact hon) hrng
    rw [ho] at this
    simpa [onSide] using this
  refine ⟨fun s s1 u hj h1 a hm hk => ?_, fun s s1 s2 u hj h1 h2 a hm hk => ?_⟩
  · obtain ⟨-, q⟩ := year s s1 u hj h1
    obtain ⟨q1, q2, -⟩ := q a hm hk
    exact Taxable.priced_gain q1 q2
  · obtain ⟨y1, q⟩ := year s s1 u hj h1
    obtain ⟨q1, q2, q3, q4, q5, q6⟩ := q a hm hk
    obtain ⟨e1, e2⟩ := Forecast.calls_inv (Household.C79_keeps_time E) h1
    have step1 : ∀ c ∈ Forecast.components (world E), yearOf s1.w c = s1.year := fun c hc =>
      (e2 c).trans ((u.step c hc).trans e1.symm)
    obtain ⟨-, -, -, -, n5, -⟩ := Household.new_year hc.timed y1 step1 h2
    refine ⟨Taxable.priced_next q1 (y1.acct a) q2 (n5 a hm), ?_⟩
    have := (q3.next (y1.acct a) q5 (by rw [q6]; exact ha.growth a _)
      (by unfold Acct.A; rw [q6]; exact fun t h0 h1 => hi.rise a (hE ▸ hm) hk _ t h0 h1)
      (by simpa [onSide] using q4) (n5 a hm)).1
    simpa [onSide] using this

theorem Varied.carries {F : Family K} {c : ℕ → Contract K} {t : Tax.Tax K} {B : ℤ → Dict K K}
    {pd : ℤ → K} {owed : ℕ → Bool} {kind : ℕ → Kind} {base : ℕ → K}
    (h : Varied F c t B pd owed kind base) {accounts : ℕ → Acct K} (ha : Starts F accounts)
    (hi : Invested F kind accounts) :
    Household.Carries (household F) accounts
      (fun acc => ∀ a ∈ holdings (household F), kind a = .taxable →
        ∃ g, Taxable.gainOf F.initial (base a) (acc a) = .ok g)
      (fun acc => ∀ a ∈ holdings (household F), kind a = .taxable →
        Taxable.Priced F.initial (base a) (acc a) ∧ 0 ≤ opening (acc a)) :=
  careful_carries rfl h.careful h.asset ha hi

/-- **C122.** As for plain accounts, the forecast completes exactly if, in every year, the members'
take-home pay does not come to nothing: neither the limits of RRSPs and TFSAs nor the taxes on any account
stop it. In particular, the gain of a taxable account can always be worked out. -/
theorem C122_completes {F : Family K} {c : ℕ → Contract K} {t : Tax.Tax K} {B : ℤ → Dict K K}
    {pd : ℤ → K} {owed : ℕ → Bool} {kind : ℕ → Kind} {base : ℕ → K} (h : Varied F c t B pd owed kind base)
    {accounts : ℕ → Acct K} (ha : Starts F accounts) (hi : Invested F kind accounts) (n : ℕ) :
    (∃ s, forecast (household F) F.initial (scenarioYears F.initial (n + 1)) accounts = .ok s) ↔
      ∀ k : ℕ, k ≤ n → (everybody F fun i => takesHome (c i) F.initial k) ≠ 0 := by
  obtain ⟨S, info, order, T, fuel, h1, h2⟩ := h.saving
  obtain ⟨S', info', order', T', fuel', h1', h2'⟩ := h.withdrawal
  obtain ⟨s, hs, hsimple⟩ := h.plan
  have main := Household.household_completes_if (E := household F) (owed := owed) h1 h2 h1' h2'
    h.careful.people h.careful.paid h.timing h.refund h.payment
    (fun y acc _ => expenses_answer h.people hs hsimple y acc)
    (fun y acc hi hg => h.owes y acc (fun a => (hi a).1) hg) h.tells (initial := F.initial) (n := n)
    ha.sane ha.year ha.fresh ha.growth ha.rate (h.carries ha hi)
    (fun a hm hk => ⟨Taxable.priced_init (ha.year a hm), hi.opens a hm hk⟩)
  rw [main]
  constructor
  · intro hh k hk
    rw [← C120_income h.wages k]
    exact hh k hk
  · intro hh k hk
    rw [C120_income h.wages k]
    exact hh k hk

/-- **C122.** As long as the members take something home in every year, the forecast of a family whose
rates never fall completes; no account is ever overdrawn and no debt overpaid; the report shows the taxes
of `C122_tax`; and when a new year begins, what was withheld by employers and from RRSPs comes back and
those taxes are paid. -/
theorem C122_forecast {F : Family K} {c : ℕ → Contract K} {t : Tax.Tax K} {B : ℤ → Dict K K}
    {pd : ℤ → K} {owed : ℕ → Bool} {kind : ℕ → Kind} {base : ℕ → K} (h : Varied F c t B pd owed kind base)
    {accounts : ℕ → Acct K} (ha : Starts F accounts) {n : ℕ}
    (hpaid : ∀ k : ℕ, k ≤ n → (everybody F fun i => takesHome (c i) F.initial k) ≠ 0)
    (hopen : ∀ a ∈ holdings (household F), onSide (owed a) (opening (accounts a)))
    (hrate : ∀ a ∈ holdings (household F), ∀ y, Monotone ((accounts a).growth y) ∨
      owed a = false ∧ Antitone ((accounts a).growth y))
    (hrise : ∀ a ∈ holdings (household F), ∀ y t, 0 ≤ t → t ≤ 1 →
      (accounts a).growth y t ≤ (accounts a).growth (y + 1) t)
    {R : ℤ} (hR : FirstRetirement F c R) :
    ∃ (s : FS K (Home ℕ ℕ K)) (start fin : ℕ → FS K (Home ℕ ℕ K)) (living tax : ℕ → K)
      (gain real : ℕ → ℕ → K),
      forecast (household F) F.initial (scenarioYears F.initial (n + 1)) accounts = .ok s ∧
      Run (household F) F.initial n accounts s start fin ∧
      (∀ k ≤ n, ∀ a ∈ holdings (household F), ∀ t, 0 ≤ t → t ≤ 1 →
        ∃ b, balanceAtTime ((fin k).w.accounts a) (.num t) none = .ok b ∧ onSide (owed a) b) ∧
      (∀ k < n, ∃ ps, Informed F c k ps ∧ F.plan.call (balances (start k).w.accounts) (some ps)
        (some (F.initial + k)) (some R) = .ok (living k)) ∧
      (∀ k a, k < n → Gain ((fin k).w.accounts a) (gain k a)) ∧
      (∀ k < n, Realized F kind base (fin k).w.accounts (real k)) ∧
      (∀ k < n, tax k = everybody F fun i => max (Tax.bracketTax (Tax.ascending (B (F.initial + k)))
        (earns (c i) F.initial k + over F kind .plain i (gain k)
          + over F kind .rrsp i (fun a => takenOut ((fin k).w.accounts a))
          + over F kind .taxable i (fun a => real k a / 2)
          - pd (F.initial + k) - 2 * over F kind .rrsp i (fun a => paidIn ((fin k).w.accounts a)))) 0) ∧
      s.w.report = ((List.range n).map fun (k : ℕ) =>
        { income := everybody F fun i => takesHome (c i) F.initial k
          livingExpenses := living k
          savings := max ((everybody F fun i => takesHome (c i) F.initial k) - living k) 0
          principal := (F.assets.map fun a => opening ((start k).w.accounts a)).sum
          withdrawals := .fin (-(cash (start k) + (everybody F fun i => takesHome (c i) F.initial k)
            - living k - moved ((fin k).w.sub .saving).txs))
          tax := tax k }) ∧
      ∀ k < n, cash (start (k + 1))
        = cash (fin k) + keptFrom F c kind k (fin k).w.accounts - tax k := by
  obtain ⟨s, hs⟩ := (C122_completes h ha ⟨fun a hm hk => by
    have := hopen a hm
    rw [h.asset a hk] at this
    simpa [onSide] using this, fun a hm _ => hrise a hm⟩ n).2 hpaid
  obtain ⟨start, fin, hr⟩ := Household.C79_run (E := household F) ha.year hs
  have hc := Household.Run.checked h.careful (R := fun _ => True) (fun _ _ _ _ _ => trivial) ha.sane
    ha.growth hr
  let F' : Family K := { F with
    saving := fun y q => Household.only (fun p => Dict.WF p ∧ True) (F.saving y q)
    withdrawal := fun y q => Household.only Household.Usable (F.withdrawal y q) }
  have e : Household.checked (fun _ => True) (household F) = household F' := rfl
  have hsound := Household.checked_sound h.careful (fun _ => True)
  rw [e] at hc hsound
  obtain ⟨living, tax, gain, real, q1, q2, qr, q3, q4⟩ := kinds_report (F := F') hsound (c := c) h.wages hR
    (kind := kind) (base := base) h.kinds h.tax.1 h.tax.2 (n := n) (B := fun k => B (F.initial + k))
    (pd := fun k => pd (F.initial + k))
    (fun k _ => by
      obtain ⟨q1, q2, q3, q4⟩ := h.tables (F.initial + k)
      exact ⟨q1, q2, q3, q4⟩) ha.sane hc
  exact ⟨s, start, fin, living, tax, gain, real, hs, hr,
    Household.C95_solvent h.careful ha.sane ha.growth ha.fresh hopen hrate hrise hr, q1, q2, qr, q3, q4⟩

end strategies

/-! ### Families -/

section examples

/-- The rules for RRSPs in the examples: a tenth of withdrawals is withheld, a fifth if they come to more
than 50; RRSPs become RRIFs at 71. -/
def exRules : Registered.RrspEnv ℚ where
  const := ⟨18 / 100, [(2000, 1000)], [(2000, [(0, 1 / 10), (50, 1 / 5)])], 71,
    [(71, 1 / 20), (90, 1 / 10)]⟩
  adj := fun _ _ => .ok 1
  ownerAge := fun y => .ok (y - 1970)
  contributorAge := fun y => .ok (y - 1970)
  income := fun _ => .ok 1000

/-- The kinds of their accounts. -/
def exKind (a : ℕ) : Kind := 
  if a = 0 then .rrsp else if a = 1 then .plain else if a = 2 then .tfsa else .taxable

/-- The family of C120: the first one's account is an RRSP now and the second one has a TFSA and a
taxable account, too. Every
year, 100 go into the RRSP, 50 into the TFSA, and 60 are taken out of the RRSP, and 10 out of the second
one's taxable account, which has a cost base of 40. -/
def exVaried : Family ℚ := { exFamily with
  assets := [0, 1, 2, 3]
  holding := fun a =>
    if a = 0 then rrspHolding 0 (fun _ => ⟨.negInf, .fin 180, .fin 0, .fin 0⟩) exRules 2041 fun _ => 0
    else if a = 1 then plainHolding 1
    else if a = 2 then tfsaHolding 1 fun _ => ⟨.negInf, .fin 5000, .fin 0, .fin 0⟩
    else taxableHolding 1 2000 40
  saving := fun _ _ => .ok [(0, [(1 / 2, 100)]), (2, [(1 / 2, 50)])]
  withdrawal := fun _ _ => .ok [(0, [(3 / 4, -60)]), (3, [(3 / 4, -10)])] }

theorem exVaried_kinds : Kinds exVaried exKind fun _ => 40 := by
  intro a
  by_cases h0 : a = 0
  · subst h0
    show ∃ e conversion shared, _
    refine ⟨exRules, 2041, fun _ => 0, rfl, fun x hx =>
      C122_withholding_is_known (fun _ => ⟨_, rfl⟩) (fun _ _ => ⟨_, rfl⟩) (by simp [exRules]) ?_
        (by simp [exRules, Dict.keys]) _ _ hx⟩
    intro kv hkv
    simp only [exRules, List.mem_singleton] at hkv
    rw [hkv]; simp
  · by_cases h1 : a = 1
    · subst h1; rfl
    · by_cases h2 : a = 2
      · subst h2; rfl
      · have e : exKind a = .taxable := by unfold exKind; rw [if_neg h0, if_neg h1, if_neg h2]
        rw [e]
        show exVaried.holding a = taxableHolding (exVaried.holding a).owner exVaried.initial 40
        simp [exVaried, h0, h1, h2, taxableHolding, exFamily]

theorem exVaried_sound : Sound (household exVaried) := by
  have w : ∀ t : ℚ, Dict.WF [(t, (1 : ℚ))] := fun t => by unfold Dict.WF; simp [Dict.keys]
  have z : ∀ t : ℚ, Dict.total [(t, (1 : ℚ))] ≠ 0 := fun t => by simp [Dict.total, Dict.vals]
  refine C120_sound (by decide) (fun _ => ⟨w _, z _⟩) (z _) ?_ ?_ ⟨w _, z _⟩ ⟨w _, z _⟩
  · intro y q p h; cases h; unfold Dict.WF; decide +kernel
  · intro y q p h
    cases h
    exact ⟨by unfold Dict.WF; decide +kernel, fun e he => by
      simp only [List.mem_cons, List.not_mem_nil, or_false] at he
      rcases he with rfl | rfl <;>
        exact ⟨by unfold Dict.WF; decide +kernel, fun _ => by norm_num [Dict.total, Dict.vals]⟩⟩

/-- The report of four years, and the cash at the end. In 2000 the first one owes 152 on
1000 + 60 - 2·100 - 50. The second one takes 10 out of 60 which cost 40, a gain of 10/3, and owes 61/3, a
fifth of what 200 and half of that gain are above 100. -/
theorem exVaried_report : (forecast (household exVaried) 2000 (scenarioYears 2000 4) exAccounts).map
      (fun s => (cash s, s.w.report.map fun r => (r.income, r.livingExpenses, r.principal, r.tax)))
    = .ok (1039, [(1000, 500, 680, 517 / 3), (1080, 540, 1627 / 2, 577 / 3),
      (200, 100, 19127 / 20, 61 / 3)]) := by decide +kernel

/-- The hypotheses of `C122_report` are met. -/
example : ∃ s, forecast (household exVaried) 2000 (scenarioYears 2000 4) exAccounts = .ok s ∧
    Sound (household exVaried) ∧ Wages exVaried exContract ∧
    FirstRetirement exVaried exContract 2001 ∧ (Kinds exVaried exKind fun _ => 40) ∧
    exVaried.tax = Tax.base Tax.sampleTax ∧ Tax.Reachable Tax.sampleTax ∧
    (∀ k < 3, Tables Tax.sampleTax exVaried.initial
      (fun _ => [(0, 1 / 10), (1000, 3 / 10), (100, 1 / 5)]) (fun _ => 50) k) ∧
    (∀ a, Account.Reachable (exAccounts a)) ∧ (∀ a, (exAccounts a).year = exVaried.initial) := by
  cases e : forecast (household exVaried) 2000 (scenarioYears 2000 4) exAccounts with
  | error e' =>
    have h := exVaried_report
    rw [e] at h
    cases h
  | ok s =>
    refine ⟨s, rfl, exVaried_sound, exFamily_wages, exFamily_retirement, exVaried_kinds, rfl,
      Tax.sample_reachable [], exFamily_tables, ?_, ?_⟩
    · intro a
      unfold exAccounts
      split
      · exact ⟨_, _, _, _, [], rfl⟩
      · exact ⟨_, _, _, _, [], rfl⟩
    · intro a
      unfold exAccounts
      split <;> rfl

/-- The rules for the couple's RRSP. -/
noncomputable def realRules : Registered.RrspEnv ℝ where
  const := ⟨18 / 100, [(2020, 27000)], [(2020, [(0, 1 / 10), (5000, 1 / 5)])], 71,
    [(71, 1 / 20), (90, 1 / 10)]⟩
  adj := fun _ _ => .ok 1
  ownerAge := fun y => .ok (y - 1980)
  contributorAge := fun y => .ok (y - 1980)
  income := fun _ => .ok 2000

/-- The couple of C121, whose savings account is an RRSP with room for 300 a year, and who have a taxable
account with a cost base of 40, too. -/
noncomputable def realVaried (t : Tax.Tax ℝ)
    (solve : Traversal.Graph (List ℕ) ℕ → Except PyErr (Traversal.Flows (List ℕ) ℕ)) : Family ℝ :=
  { realFamily t solve with
    assets := [0, 2]
    holding := fun a => if a = 0 then
        rrspHolding 0 (fun _ => ⟨.negInf, .fin 300, .fin 0, .fin 0⟩) realRules 2051 fun _ => 0
      else if a = 2 then taxableHolding 1 2020 40 else plainHolding a
    saving := fun _ q => TxStrategy.call realSettings (realInfo q) id (realGiven solve q) 1000 [0, 2, 1]
      (q none).txns
    withdrawal := fun _ q => TxStrategy.call realSettings (realInfo q) id (realGiven solve q) 1000 [0, 2]
      (q none).txns }

/-- All the hypotheses of `C122_forecast` are met by this family, for any number of years. -/
theorem real_varied : ∃ t solve B pd,
    Varied (realVaried t solve) realContract t B pd (fun a => a == 1)
      (fun a => if a = 0 then .rrsp else if a = 2 then .taxable else .plain) (fun _ => 40) ∧
    Starts (realVaried t solve) realAccounts ∧
    (∀ a ∈ holdings (household (realVaried t solve)), Household.onSide (a == 1) (opening (realAccounts a))) ∧
    (∀ a ∈ holdings (household (realVaried t solve)), ∀ y, Monotone ((realAccounts a).growth y)) ∧
    (∀ a ∈ holdings (household (realVaried t solve)), ∀ y t, 0 ≤ t → t ≤ 1 →
      (realAccounts a).growth y t ≤ (realAccounts a).growth (y + 1) t) ∧
    FirstRetirement (realVaried t solve) realContract 2025 := by
  obtain ⟨t, solve, B, pd, h1, h2, h, hs, ho, hm, hr, hf⟩ := real_ordinary
  have bounds : ∀ a x, (a == 1) = true →
      ((household (realVaried t solve)).limits a x).minIn
        ≤ ((household (realVaried t solve)).limits a x).maxIn := by
    intro a x ha
    have ha' : a = 1 := by simpa using ha
    subst ha'
    show (Ext.fin (0 : ℝ)) ≤ .posInf
    simp
  have hhold : holdings (household (realVaried t solve)) = [0, 2, 1] := by
    show ([0, 2] ++ [1] : List ℕ).dedup = [0, 2, 1]
    decide
  have m0 : (0 : ℕ) ∈ holdings (household (realFamily t solve)) := by
    show 0 ∈ ([0] ++ [1] : List ℕ).dedup
    decide
  have m1 : (1 : ℕ) ∈ holdings (household (realFamily t solve)) := by
    show 1 ∈ ([0] ++ [1] : List ℕ).dedup
    decide
  refine ⟨t, solve, B, pd, ⟨fun a ha => ?_, h.people, h.wages, h.paid, h.timing, h.refund, h.payment,
    ?_, h.plan, h.tax, h.tables, h.tells, ?_,
    real_planner (l := [0, 2]) h1 h2 bounds (by simp) (by simp)⟩,
    ⟨hs.sane, fun _ _ => rfl, fun _ _ => rfl, hs.growth, fun _ _ => hs.rate 0 m0⟩, fun a ha => ?_,
    fun _ _ => hm 0 m0, fun _ _ => hr 0 m0, hf⟩
  · by_cases h1 : a = 1
    · rw [h1] at ha; cases ha
    · simpa using h1
  · intro a
    by_cases h0 : a = 0
    · subst h0
      show ∃ e conversion shared, _
      refine ⟨realRules, 2051, fun _ => 0, rfl, fun x hx =>
        C122_withholding_is_known (fun _ => ⟨_, rfl⟩) (fun _ _ => ⟨_, rfl⟩) (by simp [realRules]) ?_
          (by simp [realRules, Dict.keys]) _ _ hx⟩
      intro kv hkv
      simp only [realRules, List.mem_singleton] at hkv
      rw [hkv]; simp
    · by_cases h2 : a = 2
      · subst h2; rfl
      · simp only [h0, h2, if_false]
        show (realVaried t solve).holding a = plainHolding ((realVaried t solve).holding a).owner
        simp [realVaried, h0, h2, plainHolding]
  · rw [hhold]; exact real_planner h1 h2 bounds (by simp) (by simp)
  · rw [hhold] at ha
    simp only [List.mem_cons, List.not_mem_nil, or_false] at ha
    rcases ha with rfl | rfl | rfl
    · exact ho 0 m0
    · exact ho 0 m0
    · exact ho 1 m1

/-- Their forecast completes as long as it does not go beyond 2030, as it did with a savings account. -/
example : ∃ t solve, ∀ n : ℕ,
    (∃ s, forecast (household (realVaried t solve)) 2020 (scenarioYears 2020 (n + 1)) realAccounts
      = .ok s) ↔ n ≤ 10 := by
  obtain ⟨t, solve, B, pd, h1, h2, ho, -, hr, -⟩ := real_varied
  refine ⟨t, solve, fun n => ?_⟩
  have main := C122_completes h1 h2 ⟨fun a hm hk => by
    have := ho a hm
    rw [h1.asset a hk] at this
    simpa [Household.onSide] using this, fun a hm _ => hr a hm⟩ n
  refine main.trans ⟨fun h => ?_, fun h k hk => ?_⟩
  · by_contra hn
    refine h n (le_refl _) ?_
    refine (real_income n t solve).trans ?_
    rw [if_neg hn, if_neg (by omega), add_zero]
  · refine fun e => ?_
    have e' := (real_income k t solve).symm.trans e
    rw [if_pos (by omega)] at e'
    split at e' <;> norm_num at e'

end examples

end Forecaster.Family
