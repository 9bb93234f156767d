import Verif.Model.Link
import Verif.Model.Registered

/-!
# Opening accounts

The constructors of plain accounts, RRSPs and TFSAs (accounts/base.py:100-174,
accounts/linked_limit.py:61-81, canada/accounts/registered_account.py:15-94, rrsp.py:14-62,
tfsa.py:10-53) as they act on everything they touch: the owner's `accounts`, the contributor's
`data`, the new object. An account is known by its position in the list of all accounts ever
created, in the order of their creation; so is an `AccountLink` object. A constructor that raises
leaves behind what it has done so far.

Not modelled: the three other links of a linked account (`min_inflow_link` etc., all absent here),
`inputs` for anything but `contribution_room`, owners that are no `Person`, `initial_year=None`.
-/

namespace Forecaster.Opening

open Forecaster Forecaster.Timing Forecaster.Account Forecaster.Registered Forecaster.Link

variable {P : Type} [DecidableEq P]
variable {K : Type} [Field K] [LinearOrder K] [IsStrictOrderedRing K] [FloorRing K]

/-- The classes of accounts, with what their code knows about the world. -/
inductive Kind (K : Type)
  | plain
  | rrsp (e : RrspEnv K) (conversion : Option ℤ)
  | tfsa (e : TfsaEnv K)

/-- An account object. `link` is its `max_inflow_link`. -/
structure Obj (P K : Type) where
  kind : Kind K
  owner : P
  link : Option ℕ
  acct : Acct K
  /-- the history dict of `contribution_room` -/
  roomHist : Dict ℤ K
  /-- `inputs['contribution_room']` -/
  inputs : Dict ℤ K

/-- Everything that exists. -/
structure World (P K : Type) where
  /-- `person.data` of every person: the shared limits -/
  store : Store P String ℕ (Option K)
  /-- the `AccountLink` objects: owner and token -/
  links : List (P × String)
  accts : List (Obj P K)
  /-- `person.accounts` of every person -/
  owned : P → List ℕ

/-- Nothing has been created but people (person.py:156-159). -/
def empty : World P K := ⟨fun _ => [], [], [], fun _ => []⟩

/-- `max_inflow_link` given to a constructor: an `AccountLink`, or a tuple. -/
inductive LinkArg (P : Type)
  | obj (n : ℕ)
  | pair (p : P) (token : String)

/-- The arguments of a constructor. `growth` is what `rate` becomes for each compounding frequency
(`none`: continuous). -/
structure Args (P K : Type) where
  /-- `type(self).__name__` -/
  className : String
  kind : Kind K
  owner : P
  balance : K
  growth : Option ℕ → ℤ → K → K
  nper : Freq
  timing : Option (Arg K)
  year : ℤ
  room : Option K
  contributor : Option P
  token : Option String
  kwLimit : Option (Option K)
  kwLink : Option (LinkArg P)
  inputs : Dict ℤ K

/-- The object that `Account.__init__` makes: compounding `n`, default timing `tm`
(accounts/base.py:150-174). `_nper` is `None` and `_default_timing` is unset until assigned. -/
def newObj (a : Args P K) (n : Option ℕ) (tm : Dict K K) : Obj P K :=
  { kind := a.kind
    owner := a.owner
    link := none
    acct := Account.init a.year a.balance (a.growth n) tm
    roomHist := a.inputs
    inputs := a.inputs }

/-- `self.owner = owner` (accounts/base.py:167, 182-197) for the new object, whose other attributes
are as in `r`. -/
def put (w : World P K) (a : Args P K) (r : Obj P K) : World P K :=
  { w with
    accts := w.accts ++ [r]
    owned := fun p => if p = a.owner then w.owned p ++ [w.accts.length] else w.owned p }

/-- `nper`: `None` means 1 (accounts/base.py:154-155, 170). -/
def nperOf (a : Args P K) : Except PyErr (Option ℕ) :=
  match a.nper with
  | .none => .ok (some 1)
  | f => frequencyConv f

/-- `default_timing` (accounts/base.py:171-174, 204-210). -/
def timingOf (a : Args P K) : Except PyErr (Dict K K) :=
  match a.timing with
  | none => Timing.init (.scalar whenDefault) (.num 1)
  | some (.timing d) => .ok d
  | some arg => Timing.init arg (.num 1)

/-- `Account.__init__` (accounts/base.py:100-174): the owner is told of the account before `nper` and
the default timing are looked at. -/
def baseInit (w : World P K) (a : Args P K) : World P K × Option PyErr :=
  match nperOf a with
  | .error e => (put w a (newObj a none []), some e)
  | .ok n =>
    match timingOf a with
    | .error e => (put w a (newObj a n []), some e)
    | .ok tm => (put w a (newObj a n tm), none)

/-- The `AccountLink` object number `n` (its `default_factory` returns `None`,
linked_limit.py:184-185). -/
def linkAt (w : World P K) (n : ℕ) : Option (AccountLink P String (Option K)) :=
  (w.links[n]?).map fun pt => ⟨pt.1, pt.2, none⟩

/-- Go on unless an exception was raised. -/
def andThen (x : World P K × Option PyErr) (f : World P K → World P K × Option PyErr) :
    World P K × Option PyErr :=
  match x with
  | (w, some e) => (w, some e)
  | (w, none) => f w

/-- The link object to use, and whether it has just been made (which registers it): the one given,
or a new one (linked_limit.py:187-190). -/
def linkObj (w : World P K) (arg : LinkArg P ⊕ (P × String)) : World P K × ℕ × Bool :=
  match arg with
  | .inl (.obj n) => (w, n, false)
  | .inl (.pair p t) => ({ w with links := w.links ++ [(p, t)] }, w.links.length, true)
  | .inr pt => ({ w with links := w.links ++ [pt] }, w.links.length, true)

/-- Register a new link, add account number `i` to its group and set the limit, if one is given
(link.py:86-88, linked_limit.py:187-196). -/
def join (s : Store P String ℕ (Option K)) (l : AccountLink P String (Option K)) (fresh : Bool) (i : ℕ)
    (limit : Option K) : Except PyErr (Store P String ℕ (Option K)) := do
  let s ← linkAccount (if fresh then register s l else s) l i
  match limit with
  | some v => setData s l (some v)
  | none => .ok s

/-- `LinkedLimitAccount.__init__` after `Account.__init__` (linked_limit.py:61-81, 162-196), for
account number `i`. -/
def linkInit (w : World P K) (i : ℕ) (arg : LinkArg P ⊕ (P × String)) (limit : Option K) :
    World P K × Option PyErr :=
  let (w, n, fresh) := linkObj w arg
  match linkAt w n, w.accts[i]? with
  | some l, some r =>
    match join w.store l fresh i limit with
    | .error e => (w, some e)
    | .ok s => ({ w with store := s, accts := w.accts.set i { r with link := some n } }, none)
  | _, _ => (w, some .typeError)

/-- `max_inflow_limit` of a registered account (linked_limit.py:83-87, 127-141); `none` is Python's
`None`. -/
def limitOf (w : World P K) (r : Obj P K) : Option K :=
  match r.link.bind (linkAt w) with
  | some l => (getData w.store l).join
  | none => none

/-- `contribution_room` (registered_account.py:106-110 inside recorded_property.py:59-65). -/
def roomOf (w : World P K) (r : Obj P K) : Option K :=
  match Dict.get? r.roomHist r.acct.year with
  | some v => some v
  | none => limitOf w r

/-- `account.contribution_room = v` (registered_account.py:112-116 inside recorded_property.py:67-86,
linked_limit.py:89-92, link.py:98-104). -/
def setRoom (w : World P K) (i : ℕ) (v : K) : World P K × Option PyErr :=
  match w.accts[i]? with
  | none => (w, some .indexError)
  | some r =>
    if r.acct.year ∈ Dict.keys r.inputs then (w, none)
    else
      let w := { w with
        accts := w.accts.set i { r with roomHist := Dict.del r.roomHist r.acct.year } }
      match r.link.bind (linkAt w) with
      | none => (w, some .attributeError)
      | some l =>
        match setData w.store l (some v) with
        | .error e => (w, some e)
        | .ok s => ({ w with store := s }, none)

/-- `if self.contribution_room is None: self.contribution_room = first` (rrsp.py:60-62,
tfsa.py:52-53). -/
def firstRoom (w : World P K) (i : ℕ) (r : Obj P K) (first : Except PyErr K) :
    World P K × Option PyErr :=
  match roomOf w r with
  | some _ => (w, none)
  | none =>
    match first with
    | .error e => (w, some e)
    | .ok v => setRoom w i v

/-- What the constructors of RRSPs (rrsp.py:29-62) and TFSAs (tfsa.py:39-53) do after that of
registered accounts. -/
def kindInit (w : World P K) (i : ℕ) : World P K × Option PyErr :=
  match w.accts[i]? with
  | none => (w, some .indexError)
  | some r =>
    match r.kind with
    | .plain => (w, none)
    | .rrsp e conversion =>
      match setConversionYear e r.acct.year conversion with
      | .error x => (w, some x)
      | .ok _ =>
        match extendScalar e.const.accrualMax e.adj r.acct.year with
        | .error x => (w, some x)
        | .ok _ => firstRoom w i r (.ok 0)
    | .tfsa e =>
      match baseAccrual e with
      | .error x => (w, some x)
      | .ok _ => firstRoom w i r (inferRoom e r.roomHist r.acct.year)

/-- Construct an account. The arguments of registered accounts are checked first
(registered_account.py:72-80). -/
def openAcct (w : World P K) (a : Args P K) : World P K × Option PyErr :=
  match a.kind with
  | .plain => baseInit w a
  | _ =>
    match processAliasArgs a.room a.contributor a.token a.kwLimit a.kwLink a.owner
        (a.className ++ ".max_inflow") with
    | .error e => (w, some e)
    | .ok (arg, limit) =>
      andThen (baseInit w a) fun w1 =>
        andThen (linkInit w1 w.accts.length arg limit) fun w2 => kindInit w2 w.accts.length

/-- `account.contributor = p` (registered_account.py:101-104): the owner of the link object is
replaced; nothing is registered. -/
def setContributor (w : World P K) (i : ℕ) (p : P) : World P K × Option PyErr :=
  match (w.accts[i]?).bind Obj.link with
  | none => (w, some .attributeError)
  | some n =>
    match w.links[n]? with
    | none => (w, some .attributeError)
    | some pt => ({ w with links := w.links.set n (p, pt.2) }, none)

/-- `AccountLink((p, token), default_factory=lambda: default)` (link.py:66-88). -/
def makeLink (w : World P K) (p : P) (token : String) (default : Option K) : World P K :=
  { w with
    links := w.links ++ [(p, token)]
    store := register w.store ⟨p, token, default⟩ }

/-- `account.add_transaction(value, when)`. -/
def addTo (w : World P K) (i : ℕ) (v : K) (when : When K) : World P K × Option PyErr :=
  match w.accts[i]? with
  | none => (w, some .indexError)
  | some r =>
    match addTransaction r.acct v when with
    | .error e => (w, some e)
    | .ok a => ({ w with accts := w.accts.set i { r with acct := a } }, none)

/-- What a program does. -/
inductive Op (P K : Type)
  | open (a : Args P K)
  | link (p : P) (token : String) (default : Option K)
  | setRoom (i : ℕ) (v : K)
  | setContributor (i : ℕ) (p : P)
  | add (i : ℕ) (v : K) (when : When K)

/-- One operation. -/
def step (w : World P K) : Op P K → World P K × Option PyErr
  | .open a => openAcct w a
  | .link p token default => (makeLink w p token default, none)
  | .setRoom i v => setRoom w i v
  | .setContributor i p => setContributor w i p
  | .add i v when => addTo w i v when

/-- A program that goes on after exceptions. -/
def run (w : World P K) (ops : List (Op P K)) : World P K := ops.foldl (fun w op => (step w op).1) w

/-- The transactions of account number `j`. -/
def txnsOf (w : World P K) (j : ℕ) : Dict K K :=
  match w.accts[j]? with
  | some r => r.acct.txns
  | none => []

/-- `account.max_inflows(timing, ...)` (linked_limit.py:260-289): without a record `group` is `None`,
from which nothing can be subtracted; nor can anything from a limit that is `None`. -/
def maxInflowsOf (w : World P K) (i : ℕ) (k : FlowArgs K) : Except PyErr (Dict K (Ext K)) :=
  match w.accts[i]? with
  | none => .error .indexError
  | some r =>
    match r.link.bind (linkAt w) with
    | none => maxInflows plainLimits r.acct k
    | some l =>
      match record w.store l with
      | none => .error .typeError
      | some rec =>
        match rec.data with
        | none => .error .typeError
        | some lim =>
          linkedMaxInflows { plainLimits with maxIn := .fin lim } r.acct k none
            (some ((rec.group.filter fun j => j ≠ i).map fun j => (txnsOf w j, none)))

/-- `account.taxable_income` (accounts/base.py:836-838, rrsp.py:121-132, tfsa.py:131-134). -/
def incomeOf (r : Obj P K) : Except PyErr K :=
  match r.kind with
  | .plain => Account.taxableIncome r.acct
  | .rrsp _ _ => .ok (rrspTaxableIncome r.acct)
  | .tfsa _ => .ok 0

/-- What a person's accounts add to the person's taxable income (person.py:408-412):
`sum(account.taxable_income for account in self.accounts)`. -/
def accountIncome (w : World P K) (p : P) : Except PyErr K :=
  (w.owned p).foldlM (fun s i =>
    match w.accts[i]? with
    | none => .error .indexError
    | some r => do let x ← incomeOf r; .ok (s + x)) 0

end Forecaster.Opening
