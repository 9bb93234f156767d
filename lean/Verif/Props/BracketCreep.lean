import Verif.Props.TaxPeople
import Verif.Props.TaxHistory

/-!
# Property C99: no bracket creep

A `Tax` object moves its thresholds and the personal deduction with the price index. So incomes,
deductions and credits that merely keep up with prices bear a tax that merely keeps up with prices,
at an unchanged marginal rate, for every amount, person and household.
-/

set_option linter.unusedSectionVars false

namespace Forecaster.Tax

open Forecaster Forecaster.Inflation

variable {K : Type} [Field K] [LinearOrder K] [IsStrictOrderedRing K]

/-! ### Scaling a table -/

theorem keys_scaled (c : K) (B : Dict K K) : Dict.keys (scaled c B) = (Dict.keys B).map (· * c) := by
  simp [scaled, Dict.keys, Function.comp_def]

theorem get?_scaled {c : K} (hc : c ≠ 0) (B : Dict K K) (b : K) :
    Dict.get? (scaled c B) (b * c) = Dict.get? B b := by
  induction B with
  | nil => rfl
  | cons x B ih =>
    have : scaled c (x :: B) = (x.1 * c, x.2) :: scaled c B := rfl
    rw [this, Dict.get?_cons, Dict.get?_cons, ih]
    by_cases h : x.1 = b
    · rw [if_pos h, if_pos (by rw [h])]
    · rw [if_neg h, if_neg (fun e => h (mul_right_cancel₀ hc e))]

theorem pick_unique {B : Dict K K} {x b b' : K}
    (h : (b ∈ Dict.keys B ∧ b < x ∧ ∀ b' ∈ Dict.keys B, b' < x → b' ≤ b) ∨
      ((∀ b' ∈ Dict.keys B, x ≤ b') ∧ b ∈ Dict.keys B ∧ ∀ b' ∈ Dict.keys B, b ≤ b'))
    (h' : (b' ∈ Dict.keys B ∧ b' < x ∧ ∀ b ∈ Dict.keys B, b < x → b ≤ b') ∨
      ((∀ b ∈ Dict.keys B, x ≤ b) ∧ b' ∈ Dict.keys B ∧ ∀ b ∈ Dict.keys B, b' ≤ b)) : b = b' := by
  rcases h with ⟨h1, h2, h3⟩ | ⟨h1, h2, h3⟩ <;> rcases h' with ⟨g1, g2, g3⟩ | ⟨g1, g2, g3⟩
  · exact le_antisymm (g3 b h1 h2) (h3 b' g1 g2)
  · exact absurd h2 (not_lt.2 (g1 b h1))
  · exact absurd g2 (not_lt.2 (h1 b' g1))
  · exact le_antisymm (h3 b' g2) (g3 b h2)

theorem pickBracket_scaled {c : K} (hc : 0 < c) {B : Dict K K} {x b : K}
    (h : pickBracket B x = .ok b) : pickBracket (scaled c B) (x * c) = .ok (b * c) := by
  have hne : B ≠ [] := by rintro rfl; simp [pickBracket, Dict.keys] at h
  obtain ⟨b', hb'⟩ := pickBracket_ok (B := scaled c B) (by simpa [scaled] using hne) (x * c)
  rw [hb']
  congr 1
  refine (pick_unique ?_ (pickBracket_spec hb')).symm
  rw [keys_scaled]
  rcases pickBracket_spec h with ⟨h1, h2, h3⟩ | ⟨h1, h2, h3⟩
  · refine Or.inl ⟨List.mem_map.2 ⟨b, h1, rfl⟩, mul_lt_mul_of_pos_right h2 hc, ?_⟩
    intro b'' hb'' hlt
    obtain ⟨k, hk, rfl⟩ := List.mem_map.1 hb''
    exact mul_le_mul_of_nonneg_right (h3 k hk (lt_of_mul_lt_mul_right hlt hc.le)) hc.le
  · refine Or.inr ⟨?_, List.mem_map.2 ⟨b, h2, rfl⟩, ?_⟩
    · intro b'' hb''
      obtain ⟨k, hk, rfl⟩ := List.mem_map.1 hb''
      exact mul_le_mul_of_nonneg_right (h1 k hk) hc.le
    · intro b'' hb''
      obtain ⟨k, hk, rfl⟩ := List.mem_map.1 hb''
      exact mul_le_mul_of_nonneg_right (h3 k hk) hc.le

theorem bracketTax_scaled {c : K} (hc : 0 < c) (L : List (K × K)) (x : K) :
    bracketTax (L.map fun kv => (kv.1 * c, kv.2)) (x * c) = bracketTax L x * c := by
  induction L with
  | nil => simp [bracketTax]
  | cons p L ih =>
    obtain ⟨b, r⟩ := p
    cases L with
    | nil =>
      simp only [List.map_cons, List.map_nil, bracketTax]
      rw [← sub_mul, mul_assoc, max_mul_of_nonneg _ _ hc.le, zero_mul]
    | cons q L =>
      obtain ⟨b', r'⟩ := q
      simp only [List.map_cons, bracketTax] at ih ⊢
      rw [ih, ← min_mul_of_nonneg _ _ hc.le, ← sub_mul, add_mul, mul_assoc,
        max_mul_of_nonneg _ _ hc.le, zero_mul]

theorem ascending_scaled {c : K} (hc : 0 < c) (B : Dict K K) :
    ascending (scaled c B) = (ascending B).map fun kv => (kv.1 * c, kv.2) := by
  unfold ascending
  rw [keys_scaled, ← List.map_insertionSort (r := (· ≤ ·)) (s := (· ≤ ·)) (f := (· * c))
    (hl := fun a _ b _ => (mul_le_mul_iff_left₀ hc).symm), List.map_map, List.map_map]
  apply List.map_congr_left
  intro b _
  simp only [Function.comp_apply, Dict.val, get?_scaled hc.ne']

/-! ### The claims -/

/-- The setting: the two years take their tables (and the credit rate) from the same given years. -/
structure SameTables (br : Dict ℤ (Dict K K)) (cr : Dict ℤ K) (y₁ y₂ : ℤ) : Prop where
  brackets : nearestYear br y₁ = nearestYear br y₂
  rates : nearestYear cr y₁ = nearestYear cr y₂

theorem two_tables {br : Dict ℤ (Dict K K)} {pd cr : Dict ℤ K} {adj : Adjust K} {idx : ℤ → K}
    (S : Setting br adj idx) {t : Tax K} (h : init br pd cr adj = .ok t) {y₁ y₂ : ℤ}
    (hy : nearestYear br y₁ = nearestYear br y₂)
    (qs₁ qs₂ : List (Query K)) (hq₁ : ∀ q ∈ qs₁, q.AccumSafe br) (hq₂ : ∀ q ∈ qs₂, q.AccumSafe br) :
    ∃ B t₁ t₂, taxBrackets (run t qs₁) y₁ = .ok (B, t₁) ∧
      taxBrackets (run t qs₂) y₂ = .ok (scaled (idx y₂ / idx y₁) B, t₂) := by
  obtain ⟨o, B0, t₁, h1, h2, h3⟩ := C30_table S h qs₁ hq₁ y₁
  obtain ⟨o', B0', t₂, h1', h2', h3'⟩ := C30_table S h qs₂ hq₂ y₂
  rw [← hy, h1] at h1'; cases h1'
  rw [h2] at h2'; cases h2'
  refine ⟨_, t₁, t₂, h3, ?_⟩
  rw [h3']
  have e : scaled (idx y₂ / idx y₁) (scaled (idx y₁ / idx o) B0) = scaled (idx y₂ / idx o) B0 := by
    rw [scaled_scaled]
    congr 1
    have := (S.pos y₁).ne'; have := (S.pos o).ne'; field_simp
  unfold scaled at e ⊢
  rw [e]

theorem same_rate {br : Dict ℤ (Dict K K)} {pd cr : Dict ℤ K} {adj : Adjust K} {idx : ℤ → K}
    (S : Setting br adj idx) {t : Tax K} (h : init br pd cr adj = .ok t) {y₁ y₂ : ℤ}
    (hy : nearestYear cr y₁ = nearestYear cr y₂)
    (qs₁ qs₂ : List (Query K)) (hq₁ : ∀ q ∈ qs₁, q.AccumSafe br) (hq₂ : ∀ q ∈ qs₂, q.AccumSafe br) :
    ∃ k, creditRate (run t qs₁) y₁ = .ok k ∧ creditRate (run t qs₂) y₂ = .ok k := by
  obtain ⟨-, -, a1, b1⟩ := C30_deduction_and_credit_rate S h qs₁ hq₁ y₁
  obtain ⟨-, -, a2, b2⟩ := C30_deduction_and_credit_rate S h qs₂ hq₂ y₂
  cases hn : nearestYear cr y₁ with
  | none =>
    have e := (C09_nearest_year cr y₁).1.1 hn
    exact ⟨1, a1 e, a2 e⟩
  | some o =>
    obtain ⟨v, hv⟩ := Dict.mem_keys_iff.1 (((C09_nearest_year cr y₁).2 o).1 hn).1
    exact ⟨v, b1 o v hn hv, b2 o v (hy ▸ hn) hv⟩

/-- **C99.** Amounts: if the income, the deduction and the credit all grow with the price index from
one year to another that is covered by the same given table, so does the tax, whatever was asked of
the object before each of the two questions; and the marginal rate stays the same. -/
theorem C99_money {br : Dict ℤ (Dict K K)} {pd cr : Dict ℤ K} {adj : Adjust K} {idx : ℤ → K}
    (S : Setting br adj idx) {t : Tax K} (h : init br pd cr adj = .ok t) {y₁ y₂ : ℤ}
    (hy : SameTables br cr y₁ y₂)
    (qs₁ qs₂ : List (Query K)) (hq₁ : ∀ q ∈ qs₁, q.AccumSafe br) (hq₂ : ∀ q ∈ qs₂, q.AccumSafe br)
    (x d c : K) :
    let r := idx y₂ / idx y₁
    ∃ tax rate,
      (taxMoney (run t qs₁) x y₁ d c).map Prod.fst = .ok tax ∧
      (taxMoney (run t qs₂) (x * r) y₂ (d * r) (c * r)).map Prod.fst = .ok (tax * r) ∧
      (marginalRate (run t qs₁) x y₁).map Prod.fst = .ok rate ∧
      (marginalRate (run t qs₂) (x * r) y₂).map Prod.fst = .ok rate := by
  intro r
  have hr : 0 < r := div_pos (S.pos _) (S.pos _)
  have g1 := run_good S (init_good S h) qs₁ hq₁
  have g2 := run_good S (init_good S h) qs₂ hq₂
  obtain ⟨B, t₁, t₂, hB₁, hB₂⟩ := two_tables S h hy.brackets qs₁ qs₂ hq₁ hq₂
  obtain ⟨k, hk₁, hk₂⟩ := same_rate S h hy.rates qs₁ qs₂ hq₁ hq₂
  obtain ⟨b, acc, rate, p1, p2, p3, p4, p5⟩ := taxMoney_eq g1.inv hB₁ x d c
  obtain ⟨b', acc', rate', p1', p2', p3', p4', p5'⟩ :=
    taxMoney_eq g2.inv hB₂ (x * r) (d * r) (c * r)
  have e : x * r - d * r = (x - d) * r := by ring
  rw [e] at p1' p3' p4' p5'
  rw [pickBracket_scaled hr p1] at p1'; cases p1'
  have hrate : rate' = rate := by
    unfold getItem at p2 p2'
    rw [get?_scaled hr.ne'] at p2'
    rw [p2'] at p2; cases p2; rfl
  subst hrate
  rw [ascending_scaled hr, bracketTax_scaled hr] at p3' p4'
  have hgross : acc' + ((x - d) * r - b * r) * rate' = (acc + (x - d - b) * rate') * r := by
    rcases le_total b (x - d) with hle | hle
    · rw [p3 hle, p3' (mul_le_mul_of_nonneg_right hle hr.le)]
    · obtain ⟨rfl, -⟩ := p4 hle
      obtain ⟨rfl, -⟩ := p4' (mul_le_mul_of_nonneg_right hle hr.le)
      ring
  obtain ⟨m, m1, m2, m3⟩ := marginalRate_eq g1.inv hB₁ x
  obtain ⟨m', m1', m2', m3'⟩ := marginalRate_eq g2.inv hB₂ (x * r)
  rw [pickBracket_scaled hr m1] at m1'; cases m1'
  refine ⟨max (acc + (x - d - b) * rate' - c * k) 0, Dict.val B m, ?_, ?_, ?_, ?_⟩
  · rw [p5, hk₁]; rfl
  · rw [p5', hk₂, hgross]
    simp only [Except.bind, Except.map]
    rw [max_mul_of_nonneg _ _ hr.le, zero_mul]
    congr 2; ring
  · rw [m3]; rfl
  · rw [m3']
    simp only [Except.map, Dict.val]
    rw [get?_scaled hr.ne']

/-- The person of the later year: the same person (and spouse), whose taxable income, deductions and
credits of the later year are those of the earlier year times `r`. -/
structure KeepsUp (r : K) (y₁ y₂ : ℤ) (p q : Payer K) : Prop where
  id : q.id = p.id
  income : ∃ x, p.taxableIncome y₁ = some x ∧ q.taxableIncome y₂ = some (x * r)
  deduction : ∃ x, p.taxDeduction y₁ = some x ∧ q.taxDeduction y₂ = some (x * r)
  credit : ∃ x, p.taxCredit y₁ = some x ∧ q.taxCredit y₂ = some (x * r)

/-- **C99.** A person: if taxable income, own deductions and own credits, and the further deduction
and credit of the call, all grow with the price index, so does the person's tax, personal deduction
included. -/
theorem C99_person {br : Dict ℤ (Dict K K)} {pd cr : Dict ℤ K} {adj : Adjust K} {idx : ℤ → K}
    (S : Setting br adj idx) {t : Tax K} (h : init br pd cr adj = .ok t) {y₁ y₂ : ℤ}
    (hy : SameTables br cr y₁ y₂) (hpd : nearestYear pd y₁ = nearestYear pd y₂)
    (qs₁ qs₂ : List (Query K)) (hq₁ : ∀ q ∈ qs₁, q.AccumSafe br) (hq₂ : ∀ q ∈ qs₂, q.AccumSafe br)
    (p q : Payer K) (hp : KeepsUp (idx y₂ / idx y₁) y₁ y₂ p q) (d c : K) :
    ∃ tax,
      (taxPerson (base (run t qs₁)) p y₁ d c).map Prod.fst = .ok tax ∧
      (taxPerson (base (run t qs₂)) q y₂ (d * (idx y₂ / idx y₁)) (c * (idx y₂ / idx y₁))).map Prod.fst
        = .ok (tax * (idx y₂ / idx y₁)) := by
  obtain ⟨x, hx, hx'⟩ := hp.income
  obtain ⟨od, ho, ho'⟩ := hp.deduction
  obtain ⟨oc, hc, hc'⟩ := hp.credit
  obtain ⟨a1, b1, -, -⟩ := C30_deduction_and_credit_rate S h qs₁ hq₁ y₁
  obtain ⟨a2, b2, -, -⟩ := C30_deduction_and_credit_rate S h qs₂ hq₂ y₂
  obtain ⟨v, hv₁, hv₂⟩ : ∃ v, personalDeduction (run t qs₁) y₁ = .ok v ∧
      personalDeduction (run t qs₂) y₂ = .ok (v * (idx y₂ / idx y₁)) := by
    cases hn : nearestYear pd y₁ with
    | none =>
      have e := (C09_nearest_year pd y₁).1.1 hn
      exact ⟨0, a1 e, by rw [a2 e, zero_mul]⟩
    | some o =>
      obtain ⟨v, hv⟩ := Dict.mem_keys_iff.1 (((C09_nearest_year pd y₁).2 o).1 hn).1
      refine ⟨_, b1 o v hn hv, ?_⟩
      rw [b2 o v (hpd ▸ hn) hv]
      congr 1
      have := (S.pos y₁).ne'; have := (S.pos o).ne'; field_simp
  rw [C49_person_tax _ p y₁ d c x od oc v hx ho hc hv₁,
    C49_person_tax _ q y₂ _ _ _ _ _ _ hx' ho' hc' hv₂]
  obtain ⟨tax, -, m1, m2, -⟩ := C99_money S h hy qs₁ qs₂ hq₁ hq₂ x (v + 2 * od + d) (2 * oc + c)
  refine ⟨tax, m1, ?_⟩
  rw [← m2]
  congr 2 <;> ring

theorem reach {br : Dict ℤ (Dict K K)} {pd cr : Dict ℤ K} {adj : Adjust K} {idx : ℤ → K}
    (S : Setting br adj idx) {t : Tax K} (h : init br pd cr adj = .ok t) (qs : List (Query K)) :
    Reachable (run t qs) := ⟨_, _, _, _, _, qs, S.args, h, rfl⟩

theorem map_fst_ok {α β : Type} {r : Except PyErr (α × β)} {a : α} (h : r.map Prod.fst = .ok a) :
    ∃ b, r = .ok (a, b) := by
  cases r with
  | error e => cases h
  | ok p => cases h; exact ⟨p.2, rfl⟩

/-- **C99.** A household: the same for the tax of any number of people, married or not, in whatever
order their set is iterated in either year. -/
theorem C99_household {br : Dict ℤ (Dict K K)} {pd cr : Dict ℤ K} {adj : Adjust K} {idx : ℤ → K}
    (S : Setting br adj idx) {t : Tax K} (h : init br pd cr adj = .ok t) {y₁ y₂ : ℤ}
    (hy : SameTables br cr y₁ y₂) (hpd : nearestYear pd y₁ = nearestYear pd y₂)
    (qs₁ qs₂ : List (Query K)) (hq₁ : ∀ q ∈ qs₁, q.AccumSafe br) (hq₂ : ∀ q ∈ qs₂, q.AccumSafe br)
    (ps qs qs' : List (Payer K)) (hnd : (ps.map Payer.id).Nodup)
    (hp : List.Forall₂ (KeepsUp (idx y₂ / idx y₁) y₁ y₂) ps qs) (hperm : qs.Perm qs')
    (ded cred : Dict ℕ K) :
    ∃ tax,
      (taxPeople (base (run t qs₁)) ps y₁ ded cred).map Prod.fst = .ok tax ∧
      (taxPeople (base (run t qs₂)) qs' y₂ (Dict.mapVals (· * (idx y₂ / idx y₁)) ded)
        (Dict.mapVals (· * (idx y₂ / idx y₁)) cred)).map Prod.fst
        = .ok (tax * (idx y₂ / idx y₁)) := by
  set r := idx y₂ / idx y₁ with hr
  have hval : ∀ (D : Dict ℕ K) i, Dict.val (Dict.mapVals (· * r) D) i = Dict.val D i * r := by
    intro D i
    unfold Dict.val
    rw [Dict.get?_mapVals]
    cases Dict.get? D i <;> simp
  let v₁ : Payer K → K := fun p =>
    match taxPerson (base (run t qs₁)) p y₁ (Dict.val ded p.id) (Dict.val cred p.id) with
    | .ok a => a.1
    | .error _ => 0
  let v₂ : Payer K → K := fun p =>
    match taxPerson (base (run t qs₂)) p y₂ (Dict.val ded p.id * r) (Dict.val cred p.id * r) with
    | .ok a => a.1
    | .error _ => 0
  have hboth : ∀ p q, KeepsUp r y₁ y₂ p q →
      (∃ j, taxPerson (base (run t qs₁)) p y₁ (Dict.val ded p.id) (Dict.val cred p.id)
        = .ok (v₁ p, j)) ∧
      (∃ j, taxPerson (base (run t qs₂)) q y₂ (Dict.val ded q.id * r) (Dict.val cred q.id * r)
        = .ok (v₂ q, j)) ∧ v₂ q = v₁ p * r := by
    intro p q hpq
    obtain ⟨tax, m1, m2⟩ := C99_person S h hy hpd qs₁ qs₂ hq₁ hq₂ p q hpq (Dict.val ded p.id)
      (Dict.val cred p.id)
    obtain ⟨j1, m1⟩ := map_fst_ok m1
    obtain ⟨j2, m2⟩ := map_fst_ok m2
    rw [← hpq.id] at m2
    have e1 : v₁ p = tax := by simp only [v₁, m1]
    have e2 : v₂ q = tax * r := by simp only [v₂]; rw [hr, m2]
    exact ⟨⟨j1, by rw [e1]; exact m1⟩, ⟨j2, by rw [e2, hr]; exact m2⟩, by rw [e1, e2]⟩
  have hmem : ∀ {ps qs : List (Payer K)}, List.Forall₂ (KeepsUp r y₁ y₂) ps qs →
      (∀ p ∈ ps, ∃ q, KeepsUp r y₁ y₂ p q) ∧ (∀ q ∈ qs, ∃ p, KeepsUp r y₁ y₂ p q) ∧
      qs.map Payer.id = ps.map Payer.id ∧ (qs.map v₂).sum = (ps.map v₁).sum * r := by
    intro ps qs hf
    induction hf with
    | nil => simp
    | cons hab _ ih =>
      obtain ⟨i1, i2, i3, i4⟩ := ih
      refine ⟨?_, ?_, ?_, ?_⟩
      · intro p hp
        rcases List.mem_cons.1 hp with rfl | hp
        · exact ⟨_, hab⟩
        · exact i1 p hp
      · intro p hp
        rcases List.mem_cons.1 hp with rfl | hp
        · exact ⟨_, hab⟩
        · exact i2 p hp
      · simp [i3, hab.id]
      · simp only [List.map_cons, List.sum_cons, i4, (hboth _ _ hab).2.2]; ring
  obtain ⟨f1, f2, f3, f4⟩ := hmem hp
  obtain ⟨j1, k1⟩ := C31_household_is_sum (base (run t qs₁)) (reach S h qs₁) (base_pure _) ps hnd y₁
    ded cred v₁ (fun p hp => by obtain ⟨q, hq⟩ := f1 p hp; exact (hboth p q hq).1)
  obtain ⟨j2, k2⟩ := C31_household_is_sum (base (run t qs₂)) (reach S h qs₂) (base_pure _) qs'
    ((hperm.map _).nodup_iff.1 (f3 ▸ hnd)) y₂
    (Dict.mapVals (· * r) ded) (Dict.mapVals (· * r) cred) v₂
    (fun q hq => by
      obtain ⟨p, hp⟩ := f2 q (hperm.mem_iff.2 hq)
      rw [hval, hval]; exact (hboth p q hp).2.1)
  refine ⟨(ps.map v₁).sum, by rw [k1]; rfl, ?_⟩
  rw [k2, ← (hperm.map v₂).sum_eq, f4]; rfl

/-! ### Prices double between 2000 and 2015 -/

theorem sample_same : SameTables sampleBrackets [(2000, (1 / 2 : ℚ))] 2000 2015 :=
  ⟨by decide +kernel, by decide +kernel⟩

example : ∃ tax rate,
    (taxMoney (run sampleTax [.brackets 2015]) 1150 2000 50 30).map Prod.fst = .ok tax ∧
    (taxMoney (run sampleTax []) (1150 * (2 / 1)) 2015 (50 * (2 / 1)) (30 * (2 / 1))).map Prod.fst
      = .ok (tax * (2 / 1)) ∧
    (marginalRate (run sampleTax [.brackets 2015]) 1150 2000).map Prod.fst = .ok rate ∧
    (marginalRate (run sampleTax []) (1150 * (2 / 1)) 2015).map Prod.fst = .ok rate := by
  have h := C99_money sample_setting sample_init sample_same [.brackets 2015] []
    (by intro q hq; rw [List.mem_singleton] at hq; subst hq; trivial)
    (by intro q hq; cases hq) 1150 50 30
  simpa using h

example : (taxMoney sampleTax 1150 2000 50 30).map Prod.fst = .ok 205 ∧
    (taxMoney sampleTax 2300 2015 100 60).map Prod.fst = .ok 410 ∧
    (taxPerson (base sampleTax) (payer 0 none 1150 0 0) 2000 0 0).map Prod.fst = .ok 220 ∧
    (taxPerson (base sampleTax) (payer 0 none 2300 0 0) 2015 0 0).map Prod.fst = .ok 440 ∧
    KeepsUp 2 2000 2015 (payer 0 none 1150 0 0) (payer 0 none 2300 0 0) := by
  refine ⟨by decide +kernel, by decide +kernel, by decide +kernel, by decide +kernel, rfl,
    ⟨1150, rfl, ?_⟩, ⟨0, rfl, ?_⟩, ⟨0, rfl, ?_⟩⟩ <;> (unfold payer; norm_num)

/-- **C99 is false after a stray `accum` question** (see `C30_accum_poisons_cache`): twice the
income at twice the prices then bears more than twice the tax. -/
theorem C99_after_accum_refuted :
    (taxMoney sampleTax 500 2000 0 0).map Prod.fst = .ok 90 ∧
    (taxMoney sampleTax (500 * 2) 2015 0 0).map Prod.fst = .ok (90 * 2) ∧
    (taxMoney (run sampleTax [.accum 2015]) (500 * 2) 2015 0 0).map Prod.fst = .ok 380 := by
  refine ⟨?_, ?_, ?_⟩ <;> decide +kernel

end Forecaster.Tax
