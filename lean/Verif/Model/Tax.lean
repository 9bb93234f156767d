import Verif.Model.Inflation

/-!
# `forecaster/tax.py` and `forecaster/canada/tax.py`

A `Tax` object caches inflation-adjusted brackets, so that every query returns the new state of
the object together with its answer. Amounts, thresholds and rates are elements of an ordered
field `K` (the code uses `float`s, or `Decimal`s in high-precision mode: rounding is not
modelled).
-/

namespace Forecaster.Tax

open Forecaster Forecaster.Inflation

variable {K : Type} [Field K] [LinearOrder K] [IsStrictOrderedRing K]

/-- The state of a `Tax` object (tax.py:164-192). The payment and refund timings are plain
`Timing`s and are left out. -/
structure Tax (K : Type) where
  /-- `_tax_brackets`: `{year: {threshold: rate}}`. -/
  brackets : Dict ℤ (Dict K K)
  /-- `_accum`: `{year: {threshold: tax on all income below it}}`. -/
  accum : Dict ℤ (Dict K K)
  /-- `_personal_deduction`. -/
  personal : Dict ℤ K
  /-- `_credit_rate`. -/
  creditRates : Dict ℤ K
  /-- `inflation_adjust(target_year, base_year)`. -/
  adjust : Adjust K

/-- One pass of the loop of `add_accum` (tax.py:331-334): `prev` is the previous threshold.
Both lookups are of keys that are present. -/
def accumStep (B : Dict K K) (s : K × Dict K K) (bracket : K) : K × Dict K K :=
  (bracket, Dict.set s.2 bracket ((bracket - s.1) * Dict.val B s.1 + Dict.val s.2 s.1))

/-- The dict built by `add_accum` (tax.py:320-334); `min` of no brackets raises `ValueError`.
The sorted list without its minimum is its tail. -/
def accumTable (B : Dict K K) : Except PyErr (Dict K K) :=
  match (Dict.keys B).insertionSort (· ≤ ·) with
  | [] => .error .valueError
  | prev :: rest => .ok (rest.foldl (accumStep B) (prev, [(prev, 0)])).2

/-- `add_brackets` (tax.py:310-318). -/
def addBrackets (t : Tax K) (B : Dict K K) (year : ℤ) : Except PyErr (Tax K) := do
  let a ← accumTable B
  .ok { t with brackets := Dict.set t.brackets year B, accum := Dict.set t.accum year a }

/-- The defaults for an absent table (tax.py:171-187): one entry for the first year with
brackets; `min` of an empty dict raises `ValueError`. -/
def orDefault (table : Dict ℤ K) (brackets : Dict ℤ (Dict K K)) (v : K) :
    Except PyErr (Dict ℤ K) :=
  match table with
  | _ :: _ => .ok table
  | [] =>
    match (Dict.keys brackets).min? with
    | none => .error .valueError
    | some y => .ok [(y, v)]

/-- `Tax.__init__` (tax.py:114-192), for an already built `inflation_adjust`. -/
def init (brackets : Dict ℤ (Dict K K)) (personal creditRates : Dict ℤ K) (adj : Adjust K) :
    Except PyErr (Tax K) := do
  let t ← brackets.foldlM (fun t kv => addBrackets t kv.2 kv.1) (⟨[], [], [], [], adj⟩ : Tax K)
  let pd ← orDefault personal t.brackets 0
  let cr ← orDefault creditRates t.brackets 1
  .ok { t with personal := pd, creditRates := cr }

/-- The dict comprehension of `tax_brackets` (tax.py:203-207). -/
def scaleKeys (c : K) (B : Dict K K) : Dict K K :=
  B.foldl (fun d kv => Dict.set d (kv.1 * c) kv.2) []

/-- `tax_brackets(year)` (tax.py:194-211). The adjustment is evaluated once (the code evaluates
it once per threshold, with the same arguments). -/
def taxBrackets (t : Tax K) (year : ℤ) : Except PyErr (Dict K K × Tax K) :=
  match Dict.get? t.brackets year with
  | some B => .ok (B, t)
  | none =>
    match nearestYear t.brackets year with
    | none => .error .keyError
    | some base =>
      match Dict.get? t.brackets base with
      | none => .error .keyError
      | some B => do
        let c ← t.adjust year base
        let t' ← addBrackets t (scaleKeys c B) year
        .ok (scaleKeys c B, t')

/-- `accum(year)` (tax.py:213-224): for a year without a table it extends the brackets with
`extend_inflation_adjusted`, which scales the *values* (the rates) of the nearest table. -/
def accum (t : Tax K) (year : ℤ) : Except PyErr (Dict K K × Tax K) :=
  match Dict.get? t.accum year with
  | some a => .ok (a, t)
  | none => do
    let v ← extendInflationAdjusted (Dict.mapVals Val.dict t.brackets) t.adjust year
    match v with
    | .dict B => do
      let t' ← addBrackets t B year
      match Dict.get? t'.accum year with
      | some a => .ok (a, t')
      | none => .error .keyError
    | _ => .error .typeError

/-- `personal_deduction(year)` (tax.py:226-229). -/
def personalDeduction (t : Tax K) (year : ℤ) : Except PyErr K := do
  let v ← extendInflationAdjusted (Dict.mapVals Val.scalar t.personal) t.adjust year
  match v with
  | .scalar x => .ok x
  | _ => .error .typeError

/-- `credit_rate(year)` (tax.py:272-274). -/
def creditRate (t : Tax K) (year : ℤ) : Except PyErr K :=
  match nearestYear t.creditRates year with
  | none => .error .keyError
  | some y =>
    match Dict.get? t.creditRates y with
    | some r => .ok r
    | none => .error .keyError

/-- The choice made by `marginal_bracket` among given brackets (tax.py:298-303). -/
def pickBracket (B : Dict K K) (income : K) : Except PyErr K :=
  match ((Dict.keys B).filter fun b => decide (b < income)).max? with
  | some b => .ok b
  | none =>
    match (Dict.keys B).min? with
    | some b => .ok b
    | none => .error .valueError

/-- `marginal_bracket` (tax.py:296-303). -/
def marginalBracket (t : Tax K) (income : K) (year : ℤ) : Except PyErr (K × Tax K) := do
  let (B, t) ← taxBrackets t year
  let b ← pickBracket B income
  .ok (b, t)

/-- `d[k]`. -/
def getItem {V : Type} (d : Dict K V) (k : K) : Except PyErr V :=
  match Dict.get? d k with
  | some v => .ok v
  | none => .error .keyError

/-- `marginal_rate` (tax.py:305-308). -/
def marginalRate (t : Tax K) (income : K) (year : ℤ) : Except PyErr (K × Tax K) := do
  let (B, t) ← taxBrackets t year
  let (b, t) ← marginalBracket t income year
  let r ← getItem B b
  .ok (r, t)

/-- `tax_money` (tax.py:336-382). -/
def taxMoney (t : Tax K) (income : K) (year : ℤ) (deduction credit : K) :
    Except PyErr (K × Tax K) := do
  let income := income - deduction
  let (B, t) ← taxBrackets t year
  let (b, t) ← marginalBracket t income year
  let rate ← getItem B b
  let (a, t) ← accum t year
  let acc ← getItem a b
  let grossTax := acc + (income - b) * rate
  let cr ← creditRate t year
  let netTax := grossTax - credit * cr
  .ok (max netTax 0, t)

/-- What the tax code reads from a `Person`: identity, spouse, and the histories of taxable
income, deductions and credits (`*_history[year]`, `KeyError` if absent). -/
structure Payer (K : Type) where
  id : ℕ
  spouse : Option ℕ
  taxableIncome : ℤ → Option K
  taxDeduction : ℤ → Option K
  taxCredit : ℤ → Option K

/-- `history[year]`. -/
def hist (h : ℤ → Option K) (year : ℤ) : Except PyErr K :=
  match h year with
  | some v => .ok v
  | none => .error .keyError

/-- `deduction(person, year)` (tax.py:231-247): includes the person's own deductions. -/
def deductionFor (t : Tax K) (p : Payer K) (year : ℤ) : Except PyErr K := do
  let d ← personalDeduction t year
  let own ← hist p.taxDeduction year
  .ok (d + own)

/-- `credit(person, year)` (tax.py:253-268). -/
def creditFor (p : Payer K) (year : ℤ) : Except PyErr K := hist p.taxCredit year

/-- A `Tax` object together with its (possibly overridden) `credit` method. -/
structure Jur (K : Type) where
  tax : Tax K
  credit : Tax K → Payer K → ℤ → Except PyErr K

/-- A plain `Tax` object. -/
def base (t : Tax K) : Jur K := ⟨t, fun _ p y => creditFor p y⟩

/-- `tax_person` (tax.py:384-414): adds the person's own deductions and credits to those
returned by `deduction` and `credit`, which contain them already. -/
def taxPerson (j : Jur K) (p : Payer K) (year : ℤ) (deduction credit : K) :
    Except PyErr (K × Jur K) := do
  let income ← hist p.taxableIncome year
  let d1 ← hist p.taxDeduction year
  let d2 ← deductionFor j.tax p year
  let c1 ← hist p.taxCredit year
  let c2 ← j.credit j.tax p year
  let (x, t) ← taxMoney j.tax income year (d1 + d2 + deduction) (c1 + c2 + credit)
  .ok (x, { j with tax := t })

/-- `tax_person` called with the entries of the `deduction` and `credit` dicts
(tax.py:461-473, 513-519). -/
def taxOne (j : Jur K) (p : Payer K) (year : ℤ) (ded cred : Dict ℕ K) : Except PyErr (K × Jur K) :=
  taxPerson j p year (Dict.val ded p.id) (Dict.val cred p.id)

/-- `tax_spouses` (tax.py:475-520) for a set given as a list. -/
def taxSpouses (j : Jur K) (people : List (Payer K)) (year : ℤ) (ded cred : Dict ℕ K) :
    Except PyErr (K × Jur K) :=
  people.foldlM (fun (acc : K × Jur K) p => do
    let (x, j) ← taxOne acc.2 p year ded cred
    .ok (acc.1 + x, j)) (0, j)

/-- The recursion of `tax_people` (tax.py:416-473) on a set given as a list in iteration order;
`fuel` bounds the depth of the recursion, and the number of people is enough. -/
def taxPeopleAux : ℕ → Jur K → List (Payer K) → ℤ → Dict ℕ K → Dict ℕ K →
    Except PyErr (K × Jur K)
  | _, j, [], _, _, _ => .ok (0, j)
  | 0, _, _ :: _, _, _, _ => .error .runtimeError
  | fuel + 1, j, p :: ps, year, ded, cred =>
    match p.spouse.bind fun s => (p :: ps).find? fun q => q.id == s with
    | some q => do
      -- the set `{person, person.spouse}`
      let (x, j) ← taxSpouses j (if q.id = p.id then [p] else [p, q]) year ded cred
      let (y, j) ← taxPeopleAux fuel j
        ((p :: ps).filter fun r => r.id != p.id && r.id != q.id) year ded cred
      .ok (x + y, j)
    | none => do
      let (x, j) ← taxOne j p year ded cred
      let (y, j) ← taxPeopleAux fuel j ((p :: ps).filter fun r => r.id != p.id) year ded cred
      .ok (x + y, j)

/-- `tax_people` (tax.py:416-473). -/
def taxPeople (j : Jur K) (people : List (Payer K)) (year : ℤ) (ded cred : Dict ℕ K) :
    Except PyErr (K × Jur K) :=
  taxPeopleAux people.length j people year ded cred

/-- The first argument of `Tax.__call__` (tax.py:522-533). -/
inductive Income (K : Type)
  | money (x : K)
  | person (p : Payer K)
  | people (ps : List (Payer K))

/-- A `deduction`/`credit` argument: a number or a dict keyed by person. -/
inductive Amount (K : Type)
  | scalar (x : K)
  | perPerson (d : Dict ℕ K)

/-- A scalar argument, `0` by default; a dict makes the arithmetic raise `TypeError`. -/
def Amount.asScalar : Option (Amount K) → Except PyErr K
  | none => .ok 0
  | some (.scalar x) => .ok x
  | some (.perPerson _) => .error .typeError

/-- A dict argument, empty by default; `person in number` raises `TypeError`. -/
def Amount.asDict : Option (Amount K) → Except PyErr (Dict ℕ K)
  | none => .ok []
  | some (.perPerson d) => .ok d
  | some (.scalar _) => .error .typeError

/-- `Tax.__call__` (tax.py:522-585). -/
def call (j : Jur K) (income : Income K) (year : ℤ) (ded cred : Option (Amount K)) :
    Except PyErr (K × Jur K) :=
  match income with
  | .people [] => .ok (0, j)
  | .people ps => do
    let d ← Amount.asDict ded
    let c ← Amount.asDict cred
    taxPeople j ps year d c
  | .person p => do
    let d ← Amount.asScalar ded
    let c ← Amount.asScalar cred
    taxPerson j p year d c
  | .money x => do
    let d ← Amount.asScalar ded
    let c ← Amount.asScalar cred
    let (v, t) ← taxMoney j.tax x year d c
    .ok (v, { j with tax := t })

/-- The queries a program can make of a `Tax` object. -/
inductive Query (K : Type)
  | brackets (year : ℤ)
  | marginalBracket (income : K) (year : ℤ)
  | marginalRate (income : K) (year : ℤ)
  | money (income : K) (year : ℤ) (deduction credit : K)
  | personal (year : ℤ)
  | creditRate (year : ℤ)
  | accum (year : ℤ)

/-- Answers. -/
inductive Answer (K : Type)
  | amount (x : K)
  | table (d : Dict K K)
  deriving DecidableEq

/-- Answer a query. -/
def query (t : Tax K) : Query K → Except PyErr (Answer K × Tax K)
  | .brackets y => do let (B, t) ← taxBrackets t y; .ok (.table B, t)
  | .marginalBracket x y => do let (b, t) ← marginalBracket t x y; .ok (.amount b, t)
  | .marginalRate x y => do let (r, t) ← marginalRate t x y; .ok (.amount r, t)
  | .money x y d c => do let (v, t) ← taxMoney t x y d c; .ok (.amount v, t)
  | .personal y => do let v ← personalDeduction t y; .ok (.amount v, t)
  | .creditRate y => do let v ← creditRate t y; .ok (.amount v, t)
  | .accum y => do let (a, t) ← accum t y; .ok (.table a, t)

/-- A history of queries. (A query that raises leaves no trace here; in the code the only trace
could be a table without thresholds.) -/
def run (t : Tax K) (qs : List (Query K)) : Tax K :=
  qs.foldl (fun t q => match query t q with | .ok (_, t') => t' | .error _ => t) t

/-! ### `TaxMulti` -/

/-- `TaxMulti.__call__` (tax.py:782-790). Jurisdictions are identified by their position. -/
def multiCall (js : List (Jur K)) (income : Income K) (year : ℤ) (ded cred : Dict ℕ (Amount K)) :
    Except PyErr (K × List (Jur K)) := do
  let rs ← js.zipIdx.mapM fun ji => call ji.1 income year (Dict.get? ded ji.2) (Dict.get? cred ji.2)
  .ok ((rs.map Prod.fst).sum, rs.map Prod.snd)

/-- `TaxMulti.tax_money` (tax.py:732-743): a missing deduction or credit is `None`, with which
`Tax.tax_money` cannot calculate. -/
def multiTaxMoney (js : List (Tax K)) (income : K) (year : ℤ) (ded cred : Dict ℕ K) :
    Except PyErr (K × List (Tax K)) := do
  let rs ← js.zipIdx.mapM fun ji =>
    match Dict.get? ded ji.2, Dict.get? cred ji.2 with
    | some d, some c => taxMoney ji.1 income year d c
    | _, _ => .error .typeError
  .ok ((rs.map Prod.fst).sum, rs.map Prod.snd)

/-- `TaxMulti.marginal_rate` (tax.py:726-730). -/
def multiMarginalRate (js : List (Tax K)) (income : K) (year : ℤ) :
    Except PyErr (K × List (Tax K)) := do
  let rs ← js.mapM fun t => marginalRate t income year
  .ok ((rs.map Prod.fst).sum, rs.map Prod.snd)

/-- `TaxMulti.marginal_bracket` (tax.py:720-724). -/
def multiMarginalBracket (js : List (Tax K)) (income : K) (year : ℤ) :
    Except PyErr (K × List (Tax K)) := do
  let rs ← js.mapM fun t => marginalBracket t income year
  match (rs.map Prod.fst).max? with
  | some b => .ok (b, rs.map Prod.snd)
  | none => .error .valueError

/-- `TaxMulti.tax_brackets(year)` (tax.py:669-690). `brackets` is a generator: after its keys
have been collected it is exhausted, and the sums of the second loop run over nothing. -/
def multiTaxBrackets (js : List (Tax K)) (year : ℤ) : Except PyErr (Dict K K × List (Tax K)) := do
  let rs ← js.mapM fun t => taxBrackets t year
  if rs.isEmpty then .error .typeError else
  let keys := ((rs.flatMap fun r => Dict.keys r.1).dedup).insertionSort (· ≤ ·)
  let exhausted : List (Dict K K) := []
  .ok (keys.map fun k => (k, (exhausted.map fun B => Dict.val B k).sum), rs.map Prod.snd)

/-! ### Canada -/

/-- `_pension_income_credit` (canada/tax.py:64-88). `rrspOutflows` are the (non-positive)
`outflows()` of the person's RRSPs, `cap` the constants table of the jurisdiction. -/
def pensionCredit (cap : Dict ℤ K) (adj : Adjust K) (rrspOutflows : List K) (year : ℤ) :
    Except PyErr K := do
  let v ← extendInflationAdjusted (Dict.mapVals Val.scalar cap) adj year
  match v with
  | .scalar m => .ok (min |rrspOutflows.sum| m)
  | _ => .error .typeError

/-- `_spousal_tax_credit` (canada/tax.py:90-149). `income`/`spouseIncome` are the current
`taxable_income`s; `lt` is `id(person) < id(spouse)`. -/
def spousalCredit (t : Tax K) (amount : Dict ℤ K) (p : Payer K) (spouse : Option (Payer K))
    (income spouseIncome : K) (lt : Bool) (year : ℤ) : Except PyErr K :=
  match spouse with
  | none => .ok 0
  | some s => do
    let v ← extendInflationAdjusted (Dict.mapVals Val.scalar amount) t.adjust year
    match v with
    | .scalar m => do
      let ds ← deductionFor t s year
      let spouseNet := spouseIncome - ds
      let dp ← deductionFor t p year
      let personNet := income - dp
      if personNet < spouseNet then .ok 0
      else if personNet = spouseNet ∧ lt then .ok 0
      else .ok (max (m - spouseNet) 0)
    | _ => .error .typeError

/-- What `TaxCanadaJurisdiction.credit` looks at beyond the taxpayer's histories: the constants
of the jurisdiction, the outflows of each person's RRSPs, the persons themselves, their current
taxable incomes, and the order of their memory addresses. -/
structure CanEnv (K : Type) where
  pensionCap : Dict ℤ K
  spousalAmount : Dict ℤ K
  rrspOutflows : ℕ → List K
  payer : ℕ → Option (Payer K)
  income : ℕ → K
  idLt : ℕ → ℕ → Bool

/-- `TaxCanadaJurisdiction.credit` (canada/tax.py:37-62). -/
def canadaCredit (E : CanEnv K) (t : Tax K) (p : Payer K) (year : ℤ) : Except PyErr K := do
  let c ← creditFor p year
  let pc ← pensionCredit E.pensionCap t.adjust (E.rrspOutflows p.id) year
  match p.spouse.bind E.payer with
  | none => .ok (c + pc)
  | some s => do
    let sc ← spousalCredit t E.spousalAmount p (some s) (E.income p.id) (E.income s.id)
      (E.idLt p.id s.id) year
    .ok (c + pc + sc)

/-- A `TaxCanadaJurisdiction` (canada/tax.py:13-34). -/
def canadaJur (E : CanEnv K) (t : Tax K) : Jur K := ⟨t, canadaCredit E⟩

/-- `d[k] = v` if `v` was given. -/
def setOpt {V : Type} (d : Dict ℕ V) (k : ℕ) (v : Option V) : Dict ℕ V :=
  match v with
  | some v => Dict.set d k v
  | none => d

/-- `TaxCanada.__call__` (canada/tax.py:187-250); jurisdiction 0 is federal, 1 provincial.
Returns also the caller's `deductions` and `credits_` dicts, which are updated in place. -/
def canadaCall (fed prov : Jur K) (income : Income K) (year : ℤ)
    (fd fc pd pc : Option (Amount K)) (ded cred : Option (Dict ℕ (Amount K))) :
    Except PyErr (K × List (Jur K)) × Option (Dict ℕ (Amount K)) × Option (Dict ℕ (Amount K)) :=
  let d := setOpt (setOpt (ded.getD []) 0 fd) 1 pd
  let c := setOpt (setOpt (cred.getD []) 0 fc) 1 pc
  (multiCall [fed, prov] income year d c, ded.map fun _ => d, cred.map fun _ => c)

end Forecaster.Tax
