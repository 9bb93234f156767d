import Verif.Model.Recorded
import Verif.Model.Timing

/-!
# People and accounts as ledgers that read each other

`Person` (person.py) and `Account` (accounts/base.py) with their recorded properties, caches and
`inputs`, as a system of ledgers (`Verif/Model/Recorded.lean`).  `Verif/Model/Account.lean` and
`Verif/Model/Person.lean` leave caches and `inputs` out.

Simplifications: `growth r t` stands for `accumulation_function(t, r, nper)`
(accounts/util.py:19-73); a person's retirement date is given by its year, `none` if there is none;
the tax properties of subclasses of `Account` are functions of the year and the transactions (as
those of RRSPs and TFSAs are if nothing is assigned to them); dicts of transactions given as inputs
or assigned are plain dicts.
-/

namespace Forecaster.Recorded

open Forecaster

/-- The recorded properties of a `Person` (person.py:325-421). -/
inductive PProp
  | grossIncome | netIncome | raiseRate | taxDeduction | taxCredit | taxableIncome | taxWithheld
  deriving DecidableEq

/-- The recorded properties of an `Account` (accounts/base.py:218-330, 835-838;
ledger/base.py:147-183). -/
inductive AProp
  | balance | rate | transactions | returns | taxableIncome | taxWithheld | taxCredit | taxDeduction
  deriving DecidableEq

/-- An object. -/
inductive Who (N A : Type)
  | person (i : N)
  | account (a : A)
  deriving DecidableEq

/-- A recorded property of an object. -/
inductive Key (N A : Type)
  | person (i : N) (p : PProp)
  | account (a : A) (p : AProp)
  deriving DecidableEq

/-- Recorded values: amounts and transactions. -/
inductive Val (K : Type)
  | num (x : K)
  | txns (d : Dict K K)
  deriving DecidableEq

/-- What a subclass of `Account` overrides: `taxable_income`, `tax_withheld`, `tax_credit` and
`tax_deduction` of a year and its transactions (e.g. rrsp.py:121-174). -/
structure Rules (K : Type) where
  taxable : ℤ → Dict K K → Except PyErr K
  withheld : ℤ → Dict K K → Except PyErr K
  credit : ℤ → Dict K K → Except PyErr K
  deduction : ℤ → Dict K K → Except PyErr K

/-- Everything that is not recorded: person.py:112-159, accounts/base.py:144-174. -/
structure World (N A K : Type) where
  /-- `person.retirement_date.year` -/
  retirement : N → Option ℤ
  /-- `person.raise_rate_callable` -/
  raises : N → ℤ → Except PyErr K
  /-- `person.tax_treatment`, called with an income and a year -/
  tax : N → Option (K → ℤ → Except PyErr K)
  /-- `person.accounts` -/
  accounts : N → List A
  /-- `account.rate_callable` -/
  rates : A → ℤ → Except PyErr K
  /-- growth of 1 for a time at a rate -/
  growth : A → K → K → K
  /-- `account._transactions` -/
  txns : A → Dict K K
  /-- `account.owner` -/
  owner : A → Option N
  /-- what the account's class overrides; `none` for a plain `Account` -/
  rules : A → Option (Rules K)

variable {N A K : Type} [DecidableEq N] [DecidableEq A] [Field K] [LinearOrder K]
  [IsStrictOrderedRing K]

/-- Reading an amount. -/
def askNum (k : Key N A) (f : K → Prog (Key N A) (Val K)) : Prog (Key N A) (Val K) :=
  .ask k fun
    | .num x => f x
    | .txns _ => .done (.error .typeError)

/-- Reading transactions. -/
def askTxns (k : Key N A) (f : Dict K K → Prog (Key N A) (Val K)) : Prog (Key N A) (Val K) :=
  .ask k fun
    | .txns d => f d
    | .num _ => .done (.error .typeError)

/-- `history_dict[y]` for amounts. -/
def pastNum (k : Key N A) (y : ℤ) (f : K → Prog (Key N A) (Val K)) : Prog (Key N A) (Val K) :=
  .past k y fun
    | some (.num x) => f x
    | some (.txns _) => .done (.error .typeError)
    | none => .done (.error .keyError)

/-- `history_dict[y]` for transactions. -/
def pastTxns (k : Key N A) (y : ℤ) (f : Dict K K → Prog (Key N A) (Val K)) :
    Prog (Key N A) (Val K) :=
  .past k y fun
    | some (.txns d) => f d
    | some (.num _) => .done (.error .typeError)
    | none => .done (.error .keyError)

/-- Return an amount. -/
def ret (x : K) : Prog (Key N A) (Val K) := .done (.ok (.num x))

/-- `start + sum(... for account in self.accounts)` -/
def askSum (ks : List (Key N A)) (start : K) : Prog (Key N A) (Val K) :=
  match ks with
  | [] => ret start
  | k :: ks => askNum k fun x => askSum ks (start + x)

/-- Money at the start of a year and transactions during it, at the end of the year
(accounts/base.py:230-247). -/
def grown (G : K → K) (start : K) (d : Dict K K) : K :=
  d.foldl (fun b kv => b + kv.2 * G (1 - kv.1)) (start * G 1)

/-- A tax property of an account, if its class overrides it. -/
def ruled (a : A) (w : World N A K) (f : Rules K → Dict K K → Except PyErr K)
    (plain : Prog (Key N A) (Val K)) : Prog (Key N A) (Val K) :=
  match w.rules a with
  | some R => askTxns (.account a .transactions) fun d => .done ((f R d).map .num)
  | none => plain

/-- The getters of an `Account`. -/
def accountGet (a : A) (y : ℤ) (w : World N A K) : AProp → Prog (Key N A) (Val K)
  | .balance => -- accounts/base.py:218-249
    pastNum (.account a .balance) (y - 1) fun b =>
    askNum (.account a .rate) fun r =>
    pastTxns (.account a .transactions) (y - 1) fun d => ret (grown (w.growth a r) b d)
  | .rate => .done ((w.rates a y).map .num) -- accounts/base.py:285-290
  | .transactions => .done (.ok (.txns (w.txns a))) -- accounts/base.py:292-300
  | .returns => -- accounts/base.py:302-330
    askNum (.account a .balance) fun b =>
    askNum (.account a .rate) fun r =>
    askTxns (.account a .transactions) fun d =>
    ret (d.foldl (fun x kv => x + kv.2 * (w.growth a r (1 - kv.1) - 1)) (b * (w.growth a r 1 - 1)))
  | .taxableIncome => -- accounts/base.py:835-838
    ruled a w (fun R => R.taxable y) (askNum (.account a .returns) fun x => ret (max x 0))
  | .taxWithheld => ruled a w (fun R => R.withheld y) (ret 0) -- ledger/base.py:158-165
  | .taxCredit => ruled a w (fun R => R.credit y) (ret 0) -- ledger/base.py:167-174
  | .taxDeduction => ruled a w (fun R => R.deduction y) (ret 0) -- ledger/base.py:176-183

/-- Gross income (person.py:325-340). -/
def grossGet (i : N) (y : ℤ) (w : World N A K) : Prog (Key N A) (Val K) :=
  let next := pastNum (.person i .grossIncome) (y - 1) fun x =>
    askNum (.person i .raiseRate) fun r => ret (x * (1 + r))
  match w.retirement i with
  | some y' => if y' < y then ret 0 else next
  | none => next

/-- Tax withheld (person.py:413-421). -/
def withheldGet (i : N) (y : ℤ) (w : World N A K) : Prog (Key N A) (Val K) :=
  match w.tax i with
  | some t => askNum (.person i .grossIncome) fun x => .done ((t x y).map .num)
  | none => ret 0

/-- The getters of a `Person`. -/
def personGet (i : N) (y : ℤ) (w : World N A K) : PProp → Prog (Key N A) (Val K)
  | .grossIncome => grossGet i y w
  | .netIncome => -- person.py:346-350
    askNum (.person i .grossIncome) fun x => askNum (.person i .taxWithheld) fun t => ret (x - t)
  | .raiseRate => .done ((w.raises i y).map .num) -- person.py:352-355
  | .taxDeduction => askSum ((w.accounts i).map fun a => .account a .taxDeduction) 0 -- person.py:396-400
  | .taxCredit => askSum ((w.accounts i).map fun a => .account a .taxCredit) 0 -- person.py:402-406
  | .taxableIncome => -- person.py:408-412
    askNum (.person i .grossIncome) fun x =>
      askSum ((w.accounts i).map fun a => .account a .taxableIncome) x
  | .taxWithheld => withheldGet i y w

/-- Whose property it is. -/
def Key.who : Key N A → Who N A
  | .person i _ => .person i
  | .account a _ => .account a

/-- The recorded properties of each kind of object, in some order. -/
def recordedProps : Who N A → List (Key N A)
  | .person i => [PProp.grossIncome, .netIncome, .raiseRate, .taxDeduction, .taxCredit,
      .taxableIncome, .taxWithheld].map (.person i)
  | .account a => [AProp.balance, .rate, .transactions, .returns, .taxableIncome, .taxWithheld,
      .taxCredit, .taxDeduction].map (.account a)

/-- Which are `recorded_property_cached`. -/
def Key.isCached : Key N A → Bool
  | .person _ .taxableIncome | .person _ .taxWithheld => false
  | .person _ _ => true
  | .account _ .balance | .account _ .rate => true
  | .account _ _ => false

/-- The getter of a property. -/
def getter (k : Key N A) (years : Who N A → ℤ) (w : World N A K) : Prog (Key N A) (Val K) :=
  match k with
  | .person i p => personGet i (years (.person i)) w p
  | .account a p => accountGet a (years (.account a)) w p

/-- People and accounts. -/
def household : Sys (Who N A) (Key N A) (Val K) (World N A K) where
  obj := Key.who
  props := recordedProps
  cached := Key.isCached
  fget := getter

/-- The state of a household. -/
abbrev HSt (N A K : Type) := St (Who N A) (Key N A) (Val K) (World N A K)

/-- `self._transactions[when] += value`, on a `defaultdict`. -/
def addTx (a : A) (value when : K) (w : World N A K) : World N A K :=
  { w with txns := fun a' => if a' = a then Dict.set (w.txns a) when (Dict.val (w.txns a) when + value)
      else w.txns a' }

/-- `transactions[when] = x` where `transactions` is the dict on record for this year: if it came
with the `inputs` it is the caller's own dict (`dict(self.inputs[...])`, ledger/base.py:86-88, copies
only the dict of years). -/
def putTx (a : A) (d : Dict K K) (when x : K) (s : HSt N A K) : HSt N A K :=
  let k : Key N A := .account a .transactions
  let y := s.year (.account a)
  let t := s.record household k (.txns (Dict.set d when x))
  if s.isInput household k then
    { t with inputs := fun q =>
        if q = k then (s.inputs k).map fun b => Dict.set b y (.txns (Dict.set d when x))
        else s.inputs q }
  else t

/-- `account.add_transaction` (accounts/base.py:346-368). If this year's transactions were assigned or
given as an input, `self.transactions` is a plain dict. -/
def addTransaction (a : A) (value : K) (when : Timing.When K) (s : HSt N A K) :
    Option PyErr × HSt N A K :=
  match Timing.whenConv when with
  | .error e => (some e, s)
  | .ok t =>
    match s.now household (.account a .transactions) with
    | some (.txns d) =>
      match Dict.get? d t with
      | some x => (none, putTx a d t (x + value) s)
      | none => (some .keyError, s)
    | some (.num _) => (some .typeError, s)
    | none => (none, { s with world := addTx a value t s.world })

/-- `self._transactions = defaultdict(...)` (accounts/base.py:402-406). -/
def clearTx (a : A) (w : World N A K) : World N A K :=
  { w with txns := fun a' => if a' = a then [] else w.txns a' }

/-- `while self.owner.this_year < self.this_year: self.owner.next_year()`
(accounts/base.py:395-397), for a given number of turns; each advances the owner by one year. -/
def catchUp (n : ℕ) (i : N) : ℕ → HSt N A K → Option PyErr × HSt N A K
  | 0, s => (none, s)
  | m + 1, s =>
    match nextYear household n (.person i) s with
    | (none, s') => catchUp n i m s'
    | (some e, s') => (some e, s')

/-- The rest of `Account.next_year` (accounts/base.py:399-406). -/
def closeAccount (n : ℕ) (a : A) (s : HSt N A K) : Option PyErr × HSt N A K :=
  match nextYear household n (.account a) s with
  | (none, s') => (none, { s' with world := clearTx a s'.world })
  | (some e, s') => (some e, s')

/-- `Account.next_year` (accounts/base.py:388-406). -/
def accountNextYear (n : ℕ) (a : A) (s : HSt N A K) : Option PyErr × HSt N A K :=
  match s.world.owner a with
  | none => closeAccount n a s
  | some i =>
    match catchUp n i (s.year (.account a) - s.year (.person i)).toNat s with
    | (none, s') => closeAccount n a s'
    | (some e, s') => (some e, s')

/-- `for person in self.people: while person.this_year < year: person.next_year()`
(forecast/base.py:207-209). -/
def peopleNextYear (n : ℕ) (year : ℤ) : List N → HSt N A K → Option PyErr × HSt N A K
  | [], s => (none, s)
  | i :: is, s =>
    match catchUp n i (year - s.year (.person i)).toNat s with
    | (none, s') => peopleNextYear n year is s'
    | (some e, s') => (some e, s')

/-- `account.next_year()`, several times. -/
def accountTurns (n : ℕ) (a : A) : ℕ → HSt N A K → Option PyErr × HSt N A K
  | 0, s => (none, s)
  | m + 1, s =>
    match accountNextYear n a s with
    | (none, s') => accountTurns n a m s'
    | (some e, s') => (some e, s')

/-- `for account in ...: while account.this_year < year: account.next_year()`
(forecast/base.py:210-212). -/
def accountsNextYear (n : ℕ) (year : ℤ) : List A → HSt N A K → Option PyErr × HSt N A K
  | [], s => (none, s)
  | a :: as, s =>
    match accountTurns n a (year - s.year (.account a)).toNat s with
    | (none, s') => accountsNextYear n year as s'
    | (some e, s') => (some e, s')

/-- The part of `Forecast.next_year` that advances people and accounts to `year`
(forecast/base.py:206-212); sets are lists in the order of iteration. -/
def closeYear (n : ℕ) (year : ℤ) (people : List N) (accounts : List A) (s : HSt N A K) :
    Option PyErr × HSt N A K :=
  match peopleNextYear n year people s with
  | (none, s') => accountsNextYear n year accounts s'
  | (some e, s') => (some e, s')

/-- The constructor of `Account` after the one of `Ledger` (accounts/base.py:148-174). -/
def accountInit (a : A) (balance : K) (s : HSt N A K) : HSt N A K :=
  set household (.account a .balance) (.num balance) s

/-- The end of the constructor of `Person` (person.py:151-154). -/
def personInit (n : ℕ) (i : N) (gross : K) (s : HSt N A K) : Option PyErr × HSt N A K :=
  let s := set household (.person i .grossIncome) (.num gross) s
  match read household n (.person i .grossIncome) s with
  | (.ok (.num x), s) =>
    match read household n (.person i .taxWithheld) s with
    | (.ok (.num t), s) => (none, set household (.person i .netIncome) (.num (x - t)) s)
    | (.ok (.txns _), s) => (some .typeError, s)
    | (.error e, s) => (some e, s)
  | (.ok (.txns _), s) => (some .typeError, s)
  | (.error e, s) => (some e, s)

/-- What can happen to a household; `other` is any other change to what is not recorded. -/
inductive HOp (N A K : Type)
  | read (k : Key N A)
  | personNextYear (i : N)
  | accountNextYear (a : A)
  | addTransaction (a : A) (value : K) (when : Timing.When K)
  | set (k : Key N A) (v : Val K)
  | delete (k : Key N A)
  | clearCache (o : Who N A)
  | other (f : World N A K → World N A K)

/-- One operation; a call that raises leaves the state it has reached. -/
def hstep (n : ℕ) (s : HSt N A K) : HOp N A K → HSt N A K
  | .read k => (read household n k s).2
  | .personNextYear i => (nextYear household n (.person i) s).2
  | .accountNextYear a => (accountNextYear n a s).2
  | .addTransaction a v t => (addTransaction a v t s).2
  | .set k v => set household k v s
  | .delete k => delete household k s
  | .clearCache o => clearCache household o s
  | .other f => { s with world := f s.world }

/-- A program. -/
def hrun (n : ℕ) (s : HSt N A K) (ops : List (HOp N A K)) : HSt N A K := ops.foldl (hstep n) s

end Forecaster.Recorded
