import Verif.Props.FamilyCanada

/-!
# C124: whose name comes first, and whose memory address
-/

namespace Forecaster.Family

open Forecaster Forecaster.Account Forecaster.Inflation

variable {K : Type} [Field K] [LinearOrder K] [IsStrictOrderedRing K]

/-! ### Renaming -/

/-- Specification: `F'` is the same family as `F`, but the member who was the `i`-th is now the `σ i`-th (and
is so named by the spouse and by the accounts). -/
structure Renamed (σ : Equiv.Perm ℕ) (F F' : Family K) : Prop where
  initial : F'.initial = F.initial
  size : F'.size = F.size
  inside : ∀ i < F.size, σ i < F.size
  member : ∀ i < F.size, F'.member (σ i) = { F.member i with spouse := (F.member i).spouse.map σ }
  assets : F'.assets = F.assets
  debts : F'.debts = F.debts
  holding : ∀ a, F'.holding a = { F.holding a with owner := σ (F.holding a).owner }

theorem everybody_renamed {σ : Equiv.Perm ℕ} {n : ℕ} (h : ∀ i < n, σ i < n) {F F' : Family K}
    (h1 : F.size = n) (h2 : F'.size = n) (f : ℕ → K) :
    everybody F' f = everybody F fun i => f (σ i) := by
  unfold everybody
  rw [h1, h2]
  have e : ((List.range n).map σ).Perm (List.range n) := by
    refine (List.subperm_of_subset ((List.nodup_map_iff σ.injective).2 List.nodup_range) ?_).perm_of_length_le
      (by simp)
    intro x hx
    obtain ⟨i, hi, rfl⟩ := List.mem_map.1 hx
    exact List.mem_range.2 (h i (List.mem_range.1 hi))
  have := (e.map f).sum_eq
  rw [List.map_map] at this
  exact this.symm

section
variable {σ : Equiv.Perm ℕ} {F F' : Family K}

theorem Renamed.owned (h : Renamed σ F F') (i : ℕ) : owned F' (σ i) = owned F i := by
  unfold Family.owned
  rw [h.assets, h.debts]
  congr 1
  funext a
  rw [h.holding a]
  simp [σ.injective.eq_iff]

theorem Renamed.gross (h : Renamed σ F F') {i : ℕ} (hi : i < F.size) (y : ℤ) :
    gross F' (σ i) y = gross F i y := by
  unfold Family.gross personIn
  rw [h.initial, h.member i hi]

theorem Renamed.over (h : Renamed σ F F') (i : ℕ) (f : ℕ → K) :
    overAccounts F' (σ i) f = overAccounts F i f := by
  unfold overAccounts
  rw [h.owned]

/-- **C124.** What the members of a Canadian family are called, and so in which order they are asked, makes
no difference to the tax the family owes. -/
theorem C124_renaming (h : Renamed σ F F') {C C' : Canada K} (hfed : C'.federal = C.federal)
    (hprov : C'.provincial = C.provincial) (hrrsp : C'.rrsp = C.rrsp)
    (hlt : ∀ i < F.size, ∀ j < F.size, C'.idLt (σ i) (σ j) = C.idLt i j) {y : ℤ} {fed prov : Rules K}
    (hf : InForce C.federal y fed) (hp : InForce C.provincial y prov) (hs : Together F)
    (acc : ℕ → Acct K) {inc ded cred : ℕ → K}
    (hinc : ∀ i < F.size, ∀ a ∈ Family.owned F i, (F.holding a).taxableIncome (acc a) = .ok (inc a))
    (hded : ∀ i < F.size, ∀ a ∈ Family.owned F i, (F.holding a).deduction (acc a) = .ok (ded a))
    (hcred : ∀ i < F.size, ∀ a ∈ Family.owned F i, (F.holding a).credit (acc a) = .ok (cred a))
    (hc0 : ∀ i < F.size, 0 ≤ overAccounts F i cred) :
    ∃ x, canadaOwing F C y acc = .ok x ∧ canadaOwing F' C' y acc = .ok x := by
  have back : ∀ i' < F'.size, ∃ i < F.size, σ i = i' := by
    intro i' hi'
    rw [h.size] at hi'
    have e : ((List.range F.size).map σ).Perm (List.range F.size) := by
      refine (List.subperm_of_subset ((List.nodup_map_iff σ.injective).2 List.nodup_range) ?_).perm_of_length_le
        (by simp)
      intro x hx
      obtain ⟨i, hi, rfl⟩ := List.mem_map.1 hx
      exact List.mem_range.2 (h.inside i (List.mem_range.1 hi))
    obtain ⟨i, hi, rfl⟩ := List.mem_map.1 (e.mem_iff.2 (List.mem_range.2 hi'))
    exact ⟨i, List.mem_range.1 hi, rfl⟩
  have hs' : Together F' := by
    intro i' hi' j' hj'
    obtain ⟨i, hi, rfl⟩ := back i' hi'
    rw [h.member i hi] at hj'
    obtain ⟨j, hj, rfl⟩ := Option.map_eq_some_iff.1 hj'
    rw [h.size]
    exact h.inside j (hs i hi j hj)
  have r1 := canadaOwing_eq hf hp hs acc hinc hded hcred hc0 rfl
  have r2 := canadaOwing_eq (F := F') (C := C') (y := y) (fed := fed) (prov := prov) (hfed ▸ hf) (hprov ▸ hp)
    hs' acc (inc := inc) (ded := ded) (cred := cred)
    (fun i' hi' a ha => by
      obtain ⟨i, hi, rfl⟩ := back i' hi'
      rw [h.owned] at ha
      rw [h.holding a]
      exact hinc i hi a ha)
    (fun i' hi' a ha => by
      obtain ⟨i, hi, rfl⟩ := back i' hi'
      rw [h.owned] at ha
      rw [h.holding a]
      exact hded i hi a ha)
    (fun i' hi' a ha => by
      obtain ⟨i, hi, rfl⟩ := back i' hi'
      rw [h.owned] at ha
      rw [h.holding a]
      exact hcred i hi a ha)
    (fun i' hi' => by
      obtain ⟨i, hi, rfl⟩ := back i' hi'
      rw [h.over]
      exact hc0 i hi) rfl
  refine ⟨_, r1, r2.trans ?_⟩
  rw [everybody_renamed h.inside rfl h.size]
  unfold everybody
  congr 2
  apply List.map_congr_left
  intro i hi
  have hi' := List.mem_range.1 hi
  have each : ∀ Y : Rules K,
      owes F' C' Y ⟨fun i => Family.gross F' i y + overAccounts F' i inc, fun i => overAccounts F' i ded,
        fun i => overAccounts F' i cred,
        fun i => |(((Family.owned F' i).filter C'.rrsp).map fun a => outflows (acc a) none).sum|⟩ (σ i)
      = owes F C Y ⟨fun i => Family.gross F i y + overAccounts F i inc, fun i => overAccounts F i ded,
        fun i => overAccounts F i cred,
        fun i => |(((Family.owned F i).filter C.rrsp).map fun a => outflows (acc a) none).sum|⟩ i := by
    intro Y
    unfold owes spousalOf netIncomeOf
    simp only [h.over, h.owned, h.gross hi', hrrsp, h.member i hi']
    cases e : (F.member i).spouse with
    | none => rfl
    | some j =>
      have hj := hs i hi' j e
      simp only [Option.map_some, h.over, h.gross hj, hlt i hi' j hj]
  rw [each fed, each prov]

end

/-! ### Memory addresses -/

/-- Specification: whoever has a spouse in the family is that one's spouse, and one of the two has the lower
memory address. -/
def Couples (F : Family K) (C : Canada K) : Prop :=
  ∀ i < F.size, ∀ j, (F.member i).spouse = some j →
    j < F.size ∧ (F.member j).spouse = some i ∧ C.idLt i j = !C.idLt j i

/-- Specification: the `i`-th member's tax before credits is enough for all of the member's credits, if the
spousal credit were one of them, too. -/
def Uses (Y : Rules K) (D : Return K) (i : ℕ) : Prop :=
  (2 * D.credit i + min (D.pension i) Y.pension + max (Y.spousal - netIncomeOf Y D i) 0) * Y.rate
    ≤ Tax.bracketTax (Tax.ascending Y.brackets) (D.income i - Y.basic - 2 * D.deduction i)

/-- Specification: no couple has the same net income twice, unless either of them could use all of the
credit or there is none. -/
def Settled (F : Family K) (Y : Rules K) (D : Return K) : Prop :=
  ∀ i < F.size, ∀ j, (F.member i).spouse = some j →
    netIncomeOf Y D i ≠ netIncomeOf Y D j ∨ Y.spousal ≤ netIncomeOf Y D i ∨ Uses Y D i ∧ Uses Y D j

/-- A couple together. -/
theorem pair_owes {F : Family K} {C C' : Canada K} (hC : Couples F C) (hC' : Couples F C') {Y : Rules K}
    (hr : 0 ≤ Y.rate) {D : Return K} (hset : Settled F Y D) {i j : ℕ} (hi : i < F.size) (hj : (F.member i).spouse = some j) :
    owes F C Y D i + owes F C Y D j = owes F C' Y D i + owes F C' Y D j := by
  obtain ⟨-, hji, a1⟩ := hC i hi j hj
  obtain ⟨-, -, a2⟩ := hC' i hi j hj
  rcases lt_trichotomy (netIncomeOf Y D i) (netIncomeOf Y D j) with h | h | h
  · have hn := h.ne'
    unfold owes spousalOf
    simp [hj, hji, h, h.not_gt, hn]
  · rcases hset i hi j hj with g | g | ⟨g1, g2⟩
    · exact absurd h g
    · have g' : Y.spousal ≤ netIncomeOf Y D j := h ▸ g
      have m1 : max (Y.spousal - netIncomeOf Y D i) 0 = 0 := max_eq_right (by linarith)
      have m2 : max (Y.spousal - netIncomeOf Y D j) 0 = 0 := max_eq_right (by linarith)
      unfold owes spousalOf
      simp [hj, hji, m1, m2]
    · -- either one's taxes are enough
      have key : ∀ C : Canada K, C.idLt i j = !C.idLt j i → owes F C Y D i + owes F C Y D j
          = (Tax.bracketTax (Tax.ascending Y.brackets) (D.income i - Y.basic - 2 * D.deduction i)
              - (2 * D.credit i + min (D.pension i) Y.pension) * Y.rate)
            + (Tax.bracketTax (Tax.ascending Y.brackets) (D.income j - Y.basic - 2 * D.deduction j)
              - (2 * D.credit j + min (D.pension j) Y.pension) * Y.rate)
            - max (Y.spousal - netIncomeOf Y D i) 0 * Y.rate := by
        intro C a
        have floor : ∀ k, Uses Y D k → ∀ s, s = 0 ∨ s = max (Y.spousal - netIncomeOf Y D k) 0 →
            max (Tax.bracketTax (Tax.ascending Y.brackets) (D.income k - Y.basic - 2 * D.deduction k)
              - (2 * D.credit k + min (D.pension k) Y.pension + s) * Y.rate) 0
            = Tax.bracketTax (Tax.ascending Y.brackets) (D.income k - Y.basic - 2 * D.deduction k)
              - (2 * D.credit k + min (D.pension k) Y.pension + s) * Y.rate := by
          intro k hk s hs
          unfold Uses at hk
          apply max_eq_left
          rcases hs with rfl | rfl
          · have := mul_nonneg (le_max_right (Y.spousal - netIncomeOf Y D k) 0) hr
            linarith
          · linarith
        have m : max (Y.spousal - netIncomeOf Y D j) 0 = max (Y.spousal - netIncomeOf Y D i) 0 := by rw [h]
        have b1 : spousalOf F C Y D i = if C.idLt i j = true then 0 else max (Y.spousal - netIncomeOf Y D i) 0 := by
          unfold spousalOf
          simp [hj, h]
        have b2 : spousalOf F C Y D j = if C.idLt j i = true then 0 else max (Y.spousal - netIncomeOf Y D j) 0 := by
          unfold spousalOf
          simp [hji, h]
        unfold owes
        rw [b1, b2]
        cases e : C.idLt j i with
        | true =>
          rw [e] at a
          simp only [a, Bool.not_true, Bool.false_eq_true, if_false, if_true]
          rw [floor i g1 _ (.inr rfl), floor j g2 _ (.inl rfl)]
          ring
        | false =>
          rw [e] at a
          simp only [a, Bool.not_false, Bool.false_eq_true, if_false, if_true]
          rw [floor i g1 _ (.inl rfl), floor j g2 _ (.inr rfl), m]
          ring
      rw [key C a1, key C' a2]
  · have hn := h.ne'
    unfold owes spousalOf
    simp [hj, hji, h, h.not_gt, hn]

/-- The other half of a couple, or oneself. -/
def partner (F : Family K) (i : ℕ) : ℕ := ((F.member i).spouse).getD i

/-- A family together. -/
theorem everybody_owes {F : Family K} {C C' : Canada K} (hC : Couples F C) (hC' : Couples F C') {Y : Rules K}
    (hr : 0 ≤ Y.rate) {D : Return K} (hset : Settled F Y D) :
    everybody F (owes F C Y D) = everybody F (owes F C' Y D) := by
  have inside : ∀ i < F.size, partner F i < F.size := by
    intro i hi
    unfold partner
    cases e : (F.member i).spouse with
    | none => exact hi
    | some j => exact (hC i hi j e).1
  have twice : ∀ i < F.size, partner F (partner F i) = i := by
    intro i hi
    unfold partner
    cases e : (F.member i).spouse with
    | none => simp [e]
    | some j => simp [(hC i hi j e).2.1]
  have half : ∀ f : ℕ → K, everybody F (fun i => f (partner F i)) = everybody F f := by
    intro f
    unfold everybody
    have e : ((List.range F.size).map (partner F)).Perm (List.range F.size) := by
      refine (List.subperm_of_subset ?_ ?_).perm_of_length_le (by simp)
      · refine List.Nodup.map_on ?_ List.nodup_range
        intro i hi j hj hij
        rw [← twice i (List.mem_range.1 hi), hij, twice j (List.mem_range.1 hj)]
      · intro x hx
        obtain ⟨i, hi, rfl⟩ := List.mem_map.1 hx
        exact List.mem_range.2 (inside i (List.mem_range.1 hi))
    have := (e.map f).sum_eq
    rw [List.map_map] at this
    exact this
  have both : everybody F (fun i => owes F C Y D i + owes F C Y D (partner F i))
      = everybody F fun i => owes F C' Y D i + owes F C' Y D (partner F i) := by
    unfold everybody
    congr 1
    apply List.map_congr_left
    intro i hi
    have hi' := List.mem_range.1 hi
    cases e : (F.member i).spouse with
    | none =>
      have : partner F i = i := by unfold partner; rw [e]; rfl
      rw [this]
      have : owes F C Y D i = owes F C' Y D i := by
        unfold owes spousalOf
        rw [e]
      rw [this]
    | some j =>
      have : partner F i = j := by unfold partner; rw [e]; rfl
      rw [this]
      exact pair_owes hC hC' hr hset hi' e
  rw [everybody_add, everybody_add, half, half] at both
  linarith

/-- **C124.** Where the members of a Canadian family happen to be in memory makes no difference to the tax the
family owes, unless two spouses have exactly the same net income and one of them owes too little to use the
spousal credit. -/
theorem C124_addresses {F : Family K} {c : ℕ → Contract K} (hw : Wages F c) {C : Canada K}
    {lt : ℕ → ℕ → Bool} (k : ℕ) {fed prov : Rules K} (hf : InForce C.federal (F.initial + k) fed)
    (hp : InForce C.provincial (F.initial + k) prov) (hC : Couples F C) (hC' : Couples F { C with idLt := lt })
    (acc : ℕ → Acct K) {inc ded cred : ℕ → K}
    (hinc : ∀ i < F.size, ∀ a ∈ owned F i, (F.holding a).taxableIncome (acc a) = .ok (inc a))
    (hded : ∀ i < F.size, ∀ a ∈ owned F i, (F.holding a).deduction (acc a) = .ok (ded a))
    (hcred : ∀ i < F.size, ∀ a ∈ owned F i, (F.holding a).credit (acc a) = .ok (cred a))
    (hc0 : ∀ i < F.size, 0 ≤ overAccounts F i cred) {D : Return K}
    (hD1 : ∀ i < F.size, D.income i = earns (c i) F.initial k + overAccounts F i inc)
    (hD2 : ∀ i < F.size, D.deduction i = overAccounts F i ded)
    (hD3 : ∀ i < F.size, D.credit i = overAccounts F i cred)
    (hD4 : ∀ i < F.size, D.pension i
      = (((owned F i).filter C.rrsp).map fun a => takenOut (acc a)).sum)
    (hset : Settled F fed D) (hset' : Settled F prov D) :
    ∃ x, (canadaHousehold F C).owing (F.initial + k) acc = .ok x ∧
      (canadaHousehold F { C with idLt := lt }).owing (F.initial + k) acc = .ok x := by
  have hs : Together F := fun i hi j hj => (hC i hi j hj).1
  refine ⟨_, C123_tax hw k hf hp hs acc hinc hded hcred hc0 hD1 hD2 hD3 hD4, ?_⟩
  rw [C123_tax (C := { C with idLt := lt }) hw k hf hp hs acc hinc hded hcred hc0 hD1 hD2 hD3 hD4]
  rw [everybody_add F (owes F _ fed D) (owes F _ prov D), everybody_add F (owes F C fed D) (owes F C prov D),
    everybody_owes hC hC' hf.rate_nonneg hset, everybody_owes hC hC' hp.rate_nonneg hset']

/-! ### Couples -/

/-- Two spouses who earn the same, one of whom owns an RRSP. -/
def exEqual : Family ℚ := { exVaried with
  member := fun i => { exVaried.member i with person := exPerson 0 } }

/-- 50 is paid into the RRSP, and 50 is taken out of it in the same year. -/
def exBusy : ℕ → Acct ℚ := fun a =>
  if a = 0 then { exAccounts 0 with txns := [(1 / 4, 50), (3 / 4, -50)] } else exAccounts a

/-- The jurisdictions of `exCanada`, of which the second one has a spousal amount of 2300. -/
def exGenerous (lt : ℕ → ℕ → Bool) : Canada ℚ :=
  ⟨⟨Tax.sampleTax, [(2000, 30)], [(2000, 70)]⟩, ⟨Tax.sampleTax, [(2000, 10)], [(2000, 2300)]⟩,
    fun a => a == 0, lt⟩

theorem exEqual_couples (lt : ℕ → ℕ → Bool) (h : lt 0 1 = !lt 1 0) : Couples exEqual (exGenerous lt) ∧
    Couples exFamily (exGenerous lt) := by
  have key : ∀ i < 2, ∀ j, (some (1 - i) : Option ℕ) = some j →
      j < 2 ∧ (some (1 - j) : Option ℕ) = some i ∧ lt i j = !lt j i := by
    intro i hi j hj
    have hj' : 1 - i = j := by simpa using hj
    have : i = 0 ∨ i = 1 := by omega
    rcases this with rfl | rfl
    · subst hj'; exact ⟨by decide, rfl, h⟩
    · subst hj'; exact ⟨by decide, rfl, by rw [h, Bool.not_not]⟩
  exact ⟨key, key⟩

/-- **C124** (refuted). Otherwise it may make a difference: two spouses earn 1000 each, and one of them pays
50 into an RRSP and takes 50 out of it. Their net incomes are the same, so that the one who is not first in
memory gets the spousal credit, which is more than the tax of either, and is lost with what it exceeds: the
family owes 500 or 515. -/
theorem C124_addresses_refuted :
    Couples exEqual (exGenerous fun i j => decide (i < j)) ∧
    Couples exEqual (exGenerous fun i j => decide (j < i)) ∧
    (canadaHousehold exEqual (exGenerous fun i j => decide (i < j))).owing 2000 exBusy = .ok 500 ∧
    (canadaHousehold exEqual (exGenerous fun i j => decide (j < i))).owing 2000 exBusy = .ok 515 :=
  ⟨(exEqual_couples _ (by decide)).1, (exEqual_couples _ (by decide)).1, by decide +kernel, by decide +kernel⟩

/-- The hypotheses of `C124_addresses` are met: with the accounts of C120, the first spouse's income is 1050
and the other's is 200. -/
example : ∃ (D : Return ℚ) (inc : ℕ → ℚ),
    Wages exFamily exContract ∧
    InForce (exGenerous fun i j => decide (i < j)).federal (exFamily.initial + (0 : ℕ)) (exRulesOf 30 70) ∧
    InForce (exGenerous fun i j => decide (i < j)).provincial (exFamily.initial + (0 : ℕ)) (exRulesOf 10 2300) ∧
    Couples exFamily (exGenerous fun i j => decide (i < j)) ∧
    Couples exFamily { exGenerous (fun i j => decide (i < j)) with idLt := fun i j => decide (j < i) } ∧
    (∀ i < 2, ∀ a ∈ owned exFamily i,
      (exFamily.holding a).taxableIncome (exAccounts a) = .ok (inc a)) ∧
    (∀ i < 2, D.income i = earns (exContract i) 2000 0 + overAccounts exFamily i inc) ∧
    D.income 0 = 1050 ∧ D.income 1 = 200 ∧
    Settled exFamily (exRulesOf 30 70) D ∧ Settled exFamily (exRulesOf 10 2300) D := by
  have two : ∀ {p : ℕ → Prop}, p 0 → p 1 → ∀ i < 2, p i := by
    intro p h0 h1 i hi
    have : i = 0 ∨ i = 1 := by omega
    rcases this with rfl | rfl
    · exact h0
    · exact h1
  refine ⟨⟨fun i => if i = 0 then 1050 else 200, fun _ => 0, fun _ => 0, fun _ => 0⟩,
    fun a => if a = 0 then 50 else 0, exFamily_wages, exCanada_rules 30 70 (by norm_num) 0 (by decide),
    exCanada_rules 10 2300 (by norm_num) 0 (by decide), (exEqual_couples _ (by decide)).2,
    (exEqual_couples _ (by decide)).2, two ?_ ?_, two (by decide +kernel) (by decide +kernel), rfl, rfl, ?_, ?_⟩
  · decide +kernel
  · decide +kernel
  all_goals
    intro i hi j hj
    have hj' : 1 - i = j := by
      have : (some (1 - i) : Option ℕ) = some j := hj
      simpa using this
    have h2 : i < 2 := hi
    have : i = 0 ∨ i = 1 := by omega
    refine .inl ?_
    rcases this with rfl | rfl
    · subst hj'; unfold netIncomeOf exRulesOf; norm_num
    · subst hj'; unfold netIncomeOf exRulesOf; norm_num

/-- And those of `C124_renaming`: the family of C122 with its members called the other way round. -/
example : ∃ F', Renamed (Equiv.swap 0 1) exVaried F' ∧
    (∀ i < 2, ∀ j < 2, (fun i j : ℕ => decide (j < i)) (Equiv.swap 0 1 i) (Equiv.swap 0 1 j)
      = decide (i < j)) ∧
    canadaOwing exVaried (exGenerous fun i j => decide (i < j)) 2000 exAccounts
      = canadaOwing F' (exGenerous fun i j => decide (j < i)) 2000 exAccounts ∧
    F'.member 0 = { exVaried.member 1 with spouse := some 1 } := by
  refine ⟨{ exVaried with
      member := fun i => { exVaried.member (Equiv.swap 0 1 i) with
        spouse := (exVaried.member (Equiv.swap 0 1 i)).spouse.map (Equiv.swap 0 1) }
      holding := fun a => { exVaried.holding a with owner := Equiv.swap 0 1 (exVaried.holding a).owner } },
    ⟨rfl, rfl, ?_, fun i _ => by simp, rfl, rfl, fun _ => rfl⟩, by decide, by decide +kernel, by rfl⟩
  show ∀ i < 2, Equiv.swap 0 1 i < 2
  decide

end Forecaster.Family
