import Verif.Props.RecordedHousehold

/-!
# C83: closing the year of a household

`closeYear` is what `Forecast.next_year` does to people and accounts: people first.
-/

namespace Forecaster.Recorded

open Forecaster

variable {N A K : Type} [DecidableEq N] [DecidableEq A] [Field K] [LinearOrder K]
  [IsStrictOrderedRing K]

/-! ### What depends on what -/

theorem within_askNum {D : Key N A → Prop} {k : Key N A} {f : K → Prog (Key N A) (Val K)} (h : D k)
    (hf : ∀ x, (f x).Within D) : (askNum k f).Within D := by
  refine ⟨h, fun v => ?_⟩
  cases v with
  | num x => exact hf x
  | txns d => trivial

theorem within_askTxns {D : Key N A → Prop} {k : Key N A} {f : Dict K K → Prog (Key N A) (Val K)}
    (h : D k) (hf : ∀ x, (f x).Within D) : (askTxns k f).Within D := by
  refine ⟨h, fun v => ?_⟩
  cases v with
  | num x => trivial
  | txns d => exact hf d

theorem within_pastNum {D : Key N A → Prop} {k : Key N A} {y : ℤ} {f : K → Prog (Key N A) (Val K)}
    (h : D k) (hf : ∀ x, (f x).Within D) : (pastNum k y f).Within D := by
  refine ⟨h, fun v => ?_⟩
  rcases v with _ | ⟨x⟩ | d
  · trivial
  · exact hf x
  · trivial

theorem within_pastTxns {D : Key N A → Prop} {k : Key N A} {y : ℤ}
    {f : Dict K K → Prog (Key N A) (Val K)} (h : D k) (hf : ∀ x, (f x).Within D) :
    (pastTxns k y f).Within D := by
  refine ⟨h, fun v => ?_⟩
  rcases v with _ | ⟨x⟩ | d
  · trivial
  · trivial
  · exact hf d

theorem within_askSum {D : Key N A → Prop} (ks : List (Key N A)) (h : ∀ k ∈ ks, D k) :
    ∀ start : K, (askSum ks start).Within D := by
  induction ks with
  | nil => intro _; trivial
  | cons k ks ih =>
    intro start
    exact within_askNum (h k List.mem_cons_self) fun x =>
      ih (fun q hq => h q (List.mem_cons_of_mem _ hq)) _

theorem account_within {D : Key N A → Prop} {a : A} (hD : ∀ p, D (.account a p)) (y : ℤ)
    (w : World N A K) (p : AProp) : (accountGet a y w p).Within D := by
  have hruled : ∀ (f : Rules K → Dict K K → Except PyErr K) (P : Prog (Key N A) (Val K)),
      P.Within D → (ruled a w f P).Within D := by
    intro f P h2
    unfold ruled
    cases w.rules a with
    | none => exact h2
    | some R => exact within_askTxns (hD _) fun _ => trivial
  cases p with
  | balance =>
    exact within_pastNum (hD _) fun b => within_askNum (hD _) fun r =>
      within_pastTxns (hD _) fun d => trivial
  | rate => trivial
  | transactions => trivial
  | returns =>
    exact within_askNum (hD _) fun b => within_askNum (hD _) fun r =>
      within_askTxns (hD _) fun d => trivial
  | taxableIncome => exact hruled _ _ (within_askNum (hD _) fun _ => trivial)
  | taxWithheld => exact hruled _ _ trivial
  | taxCredit => exact hruled _ _ trivial
  | taxDeduction => exact hruled _ _ trivial

theorem person_within {D : Key N A → Prop} {i : N} (hD : ∀ p, D (.person i p)) (y : ℤ)
    (w : World N A K) (hA : ∀ a ∈ w.accounts i, ∀ p, D (.account a p)) (p : PProp) :
    (personGet i y w p).Within D := by
  have hmap : ∀ (p : AProp), ∀ k ∈ (w.accounts i).map (fun a => Key.account (N := N) a p), D k := by
    intro p k hk
    obtain ⟨a, ha, rfl⟩ := List.mem_map.1 hk
    exact hA a ha p
  cases p with
  | grossIncome =>
    have next : (pastNum (Key.person (A := A) i .grossIncome) (y - 1) fun x : K =>
        askNum (.person i .raiseRate) fun r => ret (x * (1 + r))).Within D :=
      within_pastNum (hD _) fun x => within_askNum (hD _) fun r => trivial
    simp only [personGet, grossGet]
    cases w.retirement i with
    | none => exact next
    | some y' =>
      simp only
      split
      · trivial
      · exact next
  | netIncome => exact within_askNum (hD _) fun x => within_askNum (hD _) fun _ => trivial
  | raiseRate => trivial
  | taxDeduction => exact within_askSum _ (hmap _) 0
  | taxCredit => exact within_askSum _ (hmap _) 0
  | taxableIncome => exact within_askNum (hD _) fun x => within_askSum _ (hmap _) x
  | taxWithheld =>
    simp only [personGet, withheldGet]
    cases w.tax i with
    | none => trivial
    | some t => exact within_askNum (hD _) fun _ => trivial

/-- An account's properties depend on the account only. -/
theorem hval_account_agree {s t : HSt N A K} {a : A}
    (hh : ∀ p, t.hist (.account a p) = s.hist (.account a p))
    (hy : t.year (.account a) = s.year (.account a)) (h1 : t.world.rates a = s.world.rates a)
    (h2 : t.world.growth a = s.world.growth a) (h3 : t.world.txns a = s.world.txns a)
    (h4 : t.world.rules a = s.world.rules a) (p : AProp) :
    hval t (.account a p) = hval s (.account a p) := by
  refine val_agree (D := fun k => k.who = .account a) ⟨?_, ?_, ?_, ?_⟩ rfl
  · rintro (⟨i, q⟩ | ⟨b, q⟩) hk
    · cases hk
    · cases hk; exact hh q
  · intro k hk
    show t.year k.who = s.year k.who
    rw [hk, hy]
  · rintro (⟨i, q⟩ | ⟨b, q⟩) hk
    · cases hk
    · cases hk
      show accountGet a (t.year (.account a)) t.world q = accountGet a (s.year (.account a)) s.world q
      cases q <;> simp only [accountGet, ruled, hy, h1, h2, h3, h4]
  · rintro (⟨i, q⟩ | ⟨b, q⟩) hk
    · cases hk
    · cases hk; exact account_within (fun _ => rfl) _ _ q

/-! ### One year -/

theorem lt_of_five {n : ℕ} (hn : 5 ≤ n) (k : Key N A) : hrank k < n := lt_of_lt_of_le (hrank_lt k) hn

/-- Closing the year of one object, as far as the others are concerned. -/
structure Closed1 (s t : HSt N A K) (o : Who N A) : Prop where
  records : ∀ k : Key N A, k.who = o → ∃ v, hval s k = .ok v ∧ Dict.get? (t.hist k) (s.year o) = some v
  keeps : ∀ k y v, Dict.get? (s.hist k) y = some v → Dict.get? (t.hist k) y = some v
  past : ∀ (k : Key N A) y, y ≠ s.year k.who → Dict.get? (t.hist k) y = Dict.get? (s.hist k) y
  year : ∀ o', t.year o' = if o' = o then s.year o + 1 else s.year o'
  account : ∀ a p, o ≠ .account a → hval t (.account a p) = hval s (.account a p)

theorem nextYear_closed {n : ℕ} (hn : 5 ≤ n) {s t : HSt N A K} {o : Who N A}
    (h : nextYear household n o s = (none, t)) :
    Closed1 s t o ∧ t.world = s.world ∧ (∀ i p, o ≠ .person i →
      (∀ a ∈ s.world.accounts i, o ≠ .account a) → hval t (.person i p) = hval s (.person i p)) := by
  have h0 : (nextYear household n o s).1 = none := by rw [h]
  have ht : (nextYear household n o s).2 = t := by rw [h]
  obtain ⟨r1, r2, r3, r4, r5, r6, r7⟩ :=
    C81_records_the_values household hrank household_acyclic n (lt_of_five hn) s o h0
  rw [ht] at r1 r2 r4 r5 r6
  have other := C81_other_objects household hrank household_acyclic n (lt_of_five hn) s o h0
  simp only [read_val hn, ht] at other
  refine ⟨⟨?_, ?_, r2, r5, ?_⟩, r6, ?_⟩
  · intro k hk
    subst hk
    obtain ⟨v, hv, h2⟩ := r1 k (mem_props k)
    rw [read_val hn] at hv
    exact ⟨v, hv, h2⟩
  · intro k y v hv
    by_cases hy : y = s.year k.who
    · subst hy; exact r4 k v hv
    · rw [r2 k y hy]; exact hv
  · intro a p ha
    refine other (fun k => k.who = .account a) ?_ ?_ ?_ _ rfl
    · intro k hk e; exact ha (e.symm.trans hk)
    · rintro (⟨i, q⟩ | ⟨b, q⟩) hk
      · cases hk
      · cases hk; exact account_within (fun _ => rfl) _ _ q
    · rintro (⟨i, q⟩ | ⟨b, q⟩) hk y
      · cases hk
      · cases hk
        simp only [household, getter, if_neg (Ne.symm ha)]
  · intro i p hi hacc
    refine other (fun k => k.who = .person i ∨ ∃ a ∈ s.world.accounts i, k.who = .account a)
      ?_ ?_ ?_ _ (.inl rfl)
    · rintro k (hk | ⟨a, ha, hk⟩) e
      · exact hi (e.symm.trans hk)
      · exact hacc a ha (e.symm.trans hk)
    · rintro (⟨j, q⟩ | ⟨b, q⟩) hk
      · have : j = i := by
          rcases hk with hk | ⟨a, _, hk⟩
          · cases hk; rfl
          · cases hk
        subst this
        exact person_within (fun _ => .inl rfl) _ _ (fun a ha _ => .inr ⟨a, ha, rfl⟩) q
      · have : b ∈ s.world.accounts i := by
          rcases hk with hk | ⟨a, ha, hk⟩
          · cases hk
          · cases hk; exact ha
        exact account_within (fun _ => .inr ⟨b, this, rfl⟩) _ _ q
    · rintro (⟨j, q⟩ | ⟨b, q⟩) hk y
      · have : j = i := by
          rcases hk with hk | ⟨a, _, hk⟩
          · cases hk; rfl
          · cases hk
        subst this
        simp only [household, getter, if_neg (Ne.symm hi)]
      · have : b ∈ s.world.accounts i := by
          rcases hk with hk | ⟨a, ha, hk⟩
          · cases hk
          · cases hk; exact ha
        simp only [household, getter, if_neg (Ne.symm (hacc b this))]

theorem people_closed {n : ℕ} (hn : 5 ≤ n) (Y : ℤ) (is : List N) : ∀ {s t : HSt N A K},
    is.Nodup → (∀ i ∈ is, s.year (.person i) = Y - 1) → peopleNextYear n Y is s = (none, t) →
    (∀ i ∈ is, ∀ p, ∃ v, hval s (.person i p) = .ok v ∧
      Dict.get? (t.hist (.person i p)) (Y - 1) = some v) ∧
    (∀ i ∈ is, t.year (.person i) = Y) ∧
    (∀ a p, hval t (.account a p) = hval s (.account a p)) ∧
    (∀ a, t.year (.account a) = s.year (.account a)) ∧ (∀ j, s.year (.person j) ≤ t.year (.person j)) ∧
    t.world = s.world ∧
    (∀ k y v, Dict.get? (s.hist k) y = some v → Dict.get? (t.hist k) y = some v) := by
  induction is with
  | nil =>
    intro s t _ _ h
    cases h
    exact ⟨by simp, by simp, fun _ _ => rfl, fun _ => rfl, fun _ => le_rfl, rfl, fun _ _ _ h => h⟩
  | cons i is ih =>
    intro s t hnd hy h
    rw [List.nodup_cons] at hnd
    have hyi := hy i List.mem_cons_self
    simp only [peopleNextYear, hyi] at h
    have e1 : (Y - (Y - 1)).toNat = 1 := by omega
    rw [e1] at h
    simp only [catchUp] at h
    cases hr : nextYear household n (.person i) s with
    | mk x s1 =>
      rw [hr] at h
      cases x with
      | some e => simp at h
      | none =>
        simp only at h
        obtain ⟨c1, c2, c3⟩ := nextYear_closed hn hr
        obtain ⟨b1, b2, b3, b4, b5, b6, b7⟩ := ih hnd.2 (by
          intro j hj
          rw [c1.year, if_neg (fun e => hnd.1 (by cases e; exact hj))]
          exact hy j (List.mem_cons_of_mem _ hj)) h
        have hji : ∀ j ∈ is, j ≠ i := by rintro j hj rfl; exact hnd.1 hj
        refine ⟨?_, ?_, ?_, ?_, ?_, b6.trans c2, fun k y v hv => b7 k y v (c1.keeps k y v hv)⟩
        · intro j hj p
          rcases List.mem_cons.1 hj with rfl | hj
          · obtain ⟨v, h1, h2⟩ := c1.records (.person j p) rfl
            rw [hyi] at h2
            exact ⟨v, h1, b7 _ _ _ h2⟩
          · obtain ⟨v, h1, h2⟩ := b1 j hj p
            refine ⟨v, ?_, h2⟩
            rw [← h1]
            exact (c3 j p (fun e => hji j hj (by cases e; rfl)) (by intro a _ e; cases e)).symm
        · intro j hj
          by_cases hj' : j ∈ is
          · exact b2 j hj'
          · obtain rfl : j = i := (List.mem_cons.1 hj).resolve_right hj'
            -- no one else's turn changes it
            have key : ∀ (l : List N) (u v : HSt N A K), j ∉ l → peopleNextYear n Y l u = (none, v) →
                v.year (.person j) = u.year (.person j) := by
              intro l
              induction l with
              | nil => intro u v _ h; cases h; rfl
              | cons m l ihl =>
                intro u v hm h
                rw [List.mem_cons, not_or] at hm
                simp only [peopleNextYear] at h
                have turn : ∀ (q : ℕ) (u v : HSt N A K), catchUp n m q u = (none, v) →
                    v.year (.person j) = u.year (.person j) := by
                  intro q
                  induction q with
                  | zero => intro u v h; cases h; rfl
                  | succ q ihq =>
                    intro u v h
                    simp only [catchUp] at h
                    cases hr : nextYear household n (.person m) u with
                    | mk x u1 =>
                      rw [hr] at h
                      cases x with
                      | some e => simp at h
                      | none =>
                        rw [ihq u1 v h, (nextYear_closed hn hr).1.year, if_neg]
                        rintro ⟨⟩; exact hm.1 rfl
                cases hr : catchUp n m (Y - u.year (.person m)).toNat u with
                | mk x u1 =>
                  rw [hr] at h
                  cases x with
                  | some e => simp at h
                  | none =>
                    rw [ihl u1 v hm.2 h, turn _ _ _ hr]
            rw [key is s1 t hj' h, c1.year, if_pos rfl, hyi]
            omega
        · intro a p
          rw [b3 a p, c1.account a p (by simp)]
        · intro a
          rw [b4 a, c1.year, if_neg (by simp)]
        · intro j
          refine le_trans ?_ (b5 j)
          rw [c1.year]
          split
          · rename_i e; cases e; omega
          · exact le_rfl

theorem accounts_closed {n : ℕ} (hn : 5 ≤ n) (Y : ℤ) (as : List A) : ∀ {s t : HSt N A K},
    as.Nodup → (∀ a ∈ as, s.year (.account a) = Y - 1) →
    (∀ a ∈ as, ∀ i, s.world.owner a = some i → Y - 1 ≤ s.year (.person i)) →
    accountsNextYear n Y as s = (none, t) →
    (∀ a ∈ as, ∀ p, ∃ v, hval s (.account a p) = .ok v ∧
      Dict.get? (t.hist (.account a p)) (Y - 1) = some v) ∧
    (∀ o, t.year o = if ∃ a ∈ as, o = .account a then Y else s.year o) ∧
    (∀ k y v, Dict.get? (s.hist k) y = some v → Dict.get? (t.hist k) y = some v) := by
  induction as with
  | nil =>
    intro s t _ _ _ h
    cases h
    exact ⟨by simp, by simp, fun _ _ _ h => h⟩
  | cons a as ih =>
    intro s t hnd hy hown h
    rw [List.nodup_cons] at hnd
    have hya := hy a List.mem_cons_self
    have hacc : accountNextYear n a s = closeAccount n a s := by
      unfold accountNextYear
      cases ho : s.world.owner a with
      | none => rfl
      | some i =>
        have := hown a List.mem_cons_self i ho
        have e : (s.year (.account a) - s.year (.person i)).toNat = 0 := by omega
        simp only [e, catchUp]
    simp only [accountsNextYear, hya] at h
    have e1 : (Y - (Y - 1)).toNat = 1 := by omega
    rw [e1] at h
    simp only [accountTurns, hacc, closeAccount] at h
    cases hr : nextYear household n (.account a) s with
    | mk x s1 =>
      rw [hr] at h
      cases x with
      | some e => simp at h
      | none =>
        simp only at h
        obtain ⟨c1, c2, -⟩ := nextYear_closed hn hr
        have hba : ∀ b ∈ as, b ≠ a := by rintro b hb rfl; exact hnd.1 hb
        obtain ⟨b1, b2, b3⟩ := ih hnd.2 (s := { s1 with world := clearTx a s1.world }) (by
          intro b hb
          show s1.year (.account b) = Y - 1
          rw [c1.year, if_neg (fun e => hba b hb (by cases e; rfl))]
          exact hy b (List.mem_cons_of_mem _ hb)) (by
          intro b hb i hi
          show Y - 1 ≤ s1.year (.person i)
          rw [c1.year, if_neg (by simp)]
          refine hown b (List.mem_cons_of_mem _ hb) i ?_
          rw [← c2]; exact hi) h
        refine ⟨?_, ?_, fun k y v hv => b3 k y v (c1.keeps k y v hv)⟩
        · intro b hb p
          rcases List.mem_cons.1 hb with rfl | hb
          · obtain ⟨v, h1, h2⟩ := c1.records (.account b p) rfl
            rw [hya] at h2
            exact ⟨v, h1, b3 _ _ _ h2⟩
          · obtain ⟨v, h1, h2⟩ := b1 b hb p
            refine ⟨v, ?_, h2⟩
            rw [← h1, ← c1.account b p (fun e => hba b hb (by cases e; rfl))]
            exact (hval_account_agree (s := s1) (t := { s1 with world := clearTx a s1.world })
              (fun _ => rfl) rfl rfl rfl (by simp only [clearTx, if_neg (hba b hb)]) rfl p).symm
        · intro o
          rw [b2 o]
          by_cases h1 : ∃ b ∈ as, o = .account b
          · obtain ⟨b, hb, rfl⟩ := h1
            rw [if_pos ⟨b, hb, rfl⟩, if_pos ⟨b, List.mem_cons_of_mem _ hb, rfl⟩]
          · rw [if_neg h1]
            show s1.year o = _
            rw [c1.year]
            by_cases h2 : o = .account a
            · rw [if_pos h2, if_pos ⟨a, List.mem_cons_self, h2⟩, hya]; omega
            · rw [if_neg h2, if_neg]
              rintro ⟨b, hb, rfl⟩
              rcases List.mem_cons.1 hb with rfl | hb
              · exact h2 rfl
              · exact h1 ⟨b, hb, rfl⟩

/-! ### What the values are -/

theorem evProg_askSum {f : Key N A → Except PyErr (Val K)} {s : HSt N A K} (p : AProp) (as : List A)
    (hnd : as.Nodup) :
    ∀ (x : K) {v : Val K}, evProg f s (askSum (as.map fun a => .account a p) x) = .ok v →
    ∃ g : A → K, (∀ a ∈ as, f (.account a p) = .ok (.num (g a))) ∧ v = .num (x + (as.map g).sum) := by
  induction as with
  | nil =>
    intro x v h
    simp only [List.map_nil, askSum, ret, evProg] at h
    cases h
    exact ⟨fun _ => 0, by simp, by simp⟩
  | cons a as ih =>
    intro x v h
    rw [List.nodup_cons] at hnd
    simp only [List.map_cons, askSum] at h
    obtain ⟨z, h1, h2⟩ := evProg_askNum h
    obtain ⟨g, h3, h4⟩ := ih hnd.2 _ h2
    refine ⟨fun b => if b = a then z else g b, ?_, ?_⟩
    · intro b hb
      by_cases hba : b = a
      · subst hba; simp only [if_true]; exact h1
      · simp only [if_neg hba]
        exact h3 b ((List.mem_cons.1 hb).resolve_left hba)
    · rw [h4]
      have : (as.map fun b => if b = a then z else g b) = as.map g := by
        apply List.map_congr_left
        intro b hb
        rw [if_neg]; rintro rfl; exact hnd.1 hb
      simp only [List.map_cons, List.sum_cons, if_true, this]
      congr 1; ring

/-- **C83** (the year's records agree). When `Forecast.next_year` has taken people and accounts from
year `Y - 1` to year `Y`: every property of every person and account has on record, for `Y - 1`, the
value it had before; and, for each person whose accounts are among those, the records of the year
agree with each other: taxable income is gross income plus the accounts' taxable incomes; tax
deductions and credits are those of the accounts; the tax withheld is the tax on gross income; net
income is gross income less tax withheld; gross income is last year's with this year's raise, or
nothing in retirement — each unless it was on record beforehand (because it was given as an input,
assigned, or read earlier in the year and cached). -/
theorem C83_year_end (n : ℕ) (hn : 5 ≤ n) (Y : ℤ) (people : List N) (accounts : List A)
    (hp : people.Nodup) (ha : accounts.Nodup) (s t : HSt N A K)
    (hset : ∀ i ∈ people, (s.world.accounts i).Nodup)
    (hyp : ∀ i ∈ people, s.year (.person i) = Y - 1)
    (hya : ∀ a ∈ accounts, s.year (.account a) = Y - 1)
    (hown : ∀ a ∈ accounts, ∀ i, s.world.owner a = some i → i ∈ people)
    (h : closeYear n Y people accounts s = (none, t)) :
    (∀ i ∈ people, ∀ p, ∃ v, (read household n (.person i p) s).1 = .ok v ∧
      Dict.get? (t.hist (.person i p)) (Y - 1) = some v) ∧
    (∀ a ∈ accounts, ∀ p, ∃ v, (read household n (.account a p) s).1 = .ok v ∧
      Dict.get? (t.hist (.account a p)) (Y - 1) = some v) ∧
    (∀ i ∈ people, t.year (.person i) = Y) ∧ (∀ a ∈ accounts, t.year (.account a) = Y) ∧
    ∀ i ∈ people, (∀ a ∈ s.world.accounts i, a ∈ accounts) →
      let rec' := fun p => Dict.get? (t.hist (.person i p)) (Y - 1)
      let acc := fun a p => Dict.get? (t.hist (.account (N := N) a p)) (Y - 1)
      let fresh := fun p => s.now household (.person i p) = none
      let total := fun (p : AProp) (x : K) => ∃ f : A → K,
        (∀ a ∈ s.world.accounts i, acc a p = some (.num (f a))) ∧
        x = ((s.world.accounts i).map f).sum
      (fresh .taxableIncome → ∃ g x, rec' .grossIncome = some (.num g) ∧ total .taxableIncome x ∧
        rec' .taxableIncome = some (.num (g + x))) ∧
      (fresh .taxDeduction → ∃ x, total .taxDeduction x ∧ rec' .taxDeduction = some (.num x)) ∧
      (fresh .taxCredit → ∃ x, total .taxCredit x ∧ rec' .taxCredit = some (.num x)) ∧
      (fresh .taxWithheld → (s.world.tax i = none ∧ rec' .taxWithheld = some (.num 0)) ∨
        ∃ f g x, s.world.tax i = some f ∧ rec' .grossIncome = some (.num g) ∧ f g (Y - 1) = .ok x ∧
          rec' .taxWithheld = some (.num x)) ∧
      (fresh .netIncome → ∃ g x, rec' .grossIncome = some (.num g) ∧ rec' .taxWithheld = some (.num x) ∧
        rec' .netIncome = some (.num (g - x))) ∧
      (fresh .grossIncome →
        ((∃ y', s.world.retirement i = some y' ∧ y' < Y - 1) ∧ rec' .grossIncome = some (.num 0)) ∨
        ((∀ y', s.world.retirement i = some y' → Y - 1 ≤ y') ∧ ∃ g r,
          Dict.get? (t.hist (.person i .grossIncome)) (Y - 2) = some (.num g) ∧
          rec' .raiseRate = some (.num r) ∧ rec' .grossIncome = some (.num (g * (1 + r))))) := by
  simp only [closeYear] at h
  cases hr : peopleNextYear n Y people s with
  | mk x u =>
    rw [hr] at h
    cases x with
    | some e => simp at h
    | none =>
      simp only at h
      obtain ⟨p1, p2, p3, p4, p5, p6, p7⟩ := people_closed hn Y people hp hyp hr
      obtain ⟨a1, a2, a3⟩ := accounts_closed hn Y accounts ha
        (fun a hm => by rw [p4]; exact hya a hm)
        (fun a hm i hi => by
          rw [p6] at hi
          rw [p2 i (hown a hm i hi)]; omega) h
      have rp : ∀ i ∈ people, ∀ p, ∃ v, hval s (.person i p) = .ok v ∧
          Dict.get? (t.hist (.person i p)) (Y - 1) = some v := by
        intro i hi p
        obtain ⟨v, h1, h2⟩ := p1 i hi p
        exact ⟨v, h1, a3 _ _ _ h2⟩
      have ra : ∀ a ∈ accounts, ∀ p, ∃ v, hval s (.account a p) = .ok v ∧
          Dict.get? (t.hist (.account a p)) (Y - 1) = some v := by
        intro a hm p
        obtain ⟨v, h1, h2⟩ := a1 a hm p
        rw [p3] at h1
        exact ⟨v, h1, h2⟩
      refine ⟨?_, ?_, ?_, ?_, ?_⟩
      · intro i hi p; rw [read_val hn]; exact rp i hi p
      · intro a hm p; rw [read_val hn]; exact ra a hm p
      · intro i hi
        rw [a2, if_neg (by rintro ⟨a, _, e⟩; cases e)]
        exact p2 i hi
      · intro a hm
        rw [a2, if_pos ⟨a, hm, rfl⟩]
      · intro i hi hsub rec' acc fresh total
        -- a value before is a value on record
        have toP : ∀ p v, hval s (.person i p) = .ok v → rec' p = some v := by
          intro p v hv
          obtain ⟨v', h1, h2⟩ := rp i hi p
          rw [hv] at h1; cases h1; exact h2
        have toA : ∀ a ∈ s.world.accounts i, ∀ p v, hval s (.account a p) = .ok v →
            acc a p = some v := by
          intro a hm p v hv
          obtain ⟨v', h1, h2⟩ := ra a (hsub a hm) p
          rw [hv] at h1; cases h1; exact h2
        have hyi := hyp i hi
        have sums : ∀ (p : AProp) (x : K) (v : Val K),
            evProg (hval s) s (askSum ((s.world.accounts i).map fun a => .account a p) x) = .ok v →
            ∃ z, total p z ∧ v = .num (x + z) := by
          intro p x v hv
          obtain ⟨g, h1, h2⟩ := evProg_askSum p _ (hset i hi) x hv
          exact ⟨_, ⟨g, fun a hm => toA a hm p _ (h1 a hm), rfl⟩, h2⟩
        refine ⟨?_, ?_, ?_, ?_, ?_, ?_⟩
        · intro hf
          obtain ⟨v, h1, h2⟩ := rp i hi .taxableIncome
          rw [hval_none hf] at h1
          obtain ⟨g, h3, h4⟩ := evProg_askNum h1
          obtain ⟨z, h5, rfl⟩ := sums _ _ _ h4
          exact ⟨g, z, toP _ _ h3, h5, h2⟩
        · intro hf
          obtain ⟨v, h1, h2⟩ := rp i hi .taxDeduction
          rw [hval_none hf] at h1
          obtain ⟨z, h5, rfl⟩ := sums _ _ _ h1
          exact ⟨z, h5, by rw [zero_add] at h2; exact h2⟩
        · intro hf
          obtain ⟨v, h1, h2⟩ := rp i hi .taxCredit
          rw [hval_none hf] at h1
          obtain ⟨z, h5, rfl⟩ := sums _ _ _ h1
          exact ⟨z, h5, by rw [zero_add] at h2; exact h2⟩
        · intro hf
          obtain ⟨v, h1, h2⟩ := rp i hi .taxWithheld
          rw [hval_none hf] at h1
          simp only [getter, personGet, withheldGet] at h1
          cases htax : s.world.tax i with
          | none =>
            rw [htax] at h1
            simp only [ret, evProg] at h1
            cases h1
            exact .inl ⟨rfl, h2⟩
          | some f =>
            rw [htax] at h1
            obtain ⟨g, h3, h4⟩ := evProg_askNum h1
            simp only [evProg, hyi] at h4
            cases hfx : f g (Y - 1) with
            | error e => rw [hfx] at h4; cases h4
            | ok x =>
              rw [hfx] at h4
              cases h4
              exact .inr ⟨f, g, x, rfl, toP _ _ h3, hfx, h2⟩
        · intro hf
          obtain ⟨v, h1, h2⟩ := rp i hi .netIncome
          rw [hval_none hf] at h1
          obtain ⟨g, h3, h4⟩ := evProg_askNum h1
          obtain ⟨x, h5, h6⟩ := evProg_askNum h4
          simp only [ret, evProg] at h6
          cases h6
          exact ⟨g, x, toP _ _ h3, toP _ _ h5, h2⟩
        · intro hf
          obtain ⟨v, h1, h2⟩ := rp i hi .grossIncome
          rw [hval_none hf] at h1
          have next : evProg (hval s) s (pastNum (Key.person (A := A) i .grossIncome)
              (s.year (.person i) - 1) fun x : K =>
              askNum (.person i .raiseRate) fun r => ret (x * (1 + r))) = .ok v → ∃ g r,
              Dict.get? (t.hist (.person i .grossIncome)) (Y - 2) = some (.num g) ∧
              rec' .raiseRate = some (.num r) ∧ rec' .grossIncome = some (.num (g * (1 + r))) := by
            intro h1
            obtain ⟨g, h3, h4⟩ := evProg_pastNum h1
            obtain ⟨r, h5, h6⟩ := evProg_askNum h4
            simp only [ret, evProg] at h6
            cases h6
            refine ⟨g, r, a3 _ _ _ (p7 _ _ _ ?_), toP _ _ h5, h2⟩
            rw [hyi] at h3
            have e : Y - 1 - 1 = Y - 2 := by omega
            rw [← e]; exact h3
          simp only [getter, personGet, grossGet] at h1
          cases hret : s.world.retirement i with
          | none =>
            rw [hret] at h1
            exact .inr ⟨by simp, next h1⟩
          | some y' =>
            rw [hret] at h1
            simp only at h1
            by_cases hlt : y' < s.year (.person i)
            · rw [if_pos hlt] at h1
              simp only [ret, evProg] at h1
              cases h1
              exact .inl ⟨⟨y', rfl, by omega⟩, h2⟩
            · rw [if_neg hlt] at h1
              exact .inr ⟨by rintro _ ⟨⟩; omega, next h1⟩

/-- The household of 2020 after some transactions. -/
def homeDec : HSt Unit Bool ℚ :=
  hrun 5 homeNew [.addTransaction true 40 (.str "start"), .addTransaction false (-10) (.num (1 / 2))]

/-- The example household's year 2020: 1000 of gross income, 4.75 of returns, 40 deducted, 250 withheld,
750 net; then 1100 gross in 2021. -/
example :
    let r := closeYear 5 2021 [()] [false, true] homeDec
    let t := r.2
    (∀ i ∈ [()], (homeDec.world.accounts i).Nodup) ∧
    homeDec.year (.person ()) = 2021 - 1 ∧ (∀ a ∈ [false, true], homeDec.year (.account a) = 2021 - 1) ∧
    r.1 = none ∧
    Dict.get? (t.hist (.person () .taxableIncome)) 2020 = some (.num (4019 / 4)) ∧
    Dict.get? (t.hist (.account false .taxableIncome)) 2020 = some (.num (19 / 4)) ∧
    Dict.get? (t.hist (.person () .taxDeduction)) 2020 = some (.num 40) ∧
    Dict.get? (t.hist (.account true .taxDeduction)) 2020 = some (.num 40) ∧
    Dict.get? (t.hist (.person () .taxWithheld)) 2020 = some (.num 250) ∧
    Dict.get? (t.hist (.person () .netIncome)) 2020 = some (.num 750) ∧
    Dict.get? ((closeYear 5 2022 [()] [false, true] t).2.hist (.person () .grossIncome)) 2021
      = some (.num 1100) := by
  decide +kernel

/-- **C83** (refuted: "whatever was looked at during the year"). Once a person's tax deduction has been
read, it is cached: a later contribution to a registered account is on record with the account but not
with its owner. -/
theorem C83_stale_deduction_refuted :
    ¬ ∀ (w : World Unit Bool ℚ) (ops : List (HOp Unit Bool ℚ)) (t : HSt Unit Bool ℚ),
      (∀ op ∈ ops, (∃ k, op = .read k) ∨ ∃ a v when, op = .addTransaction a v when) →
      closeYear 5 2021 [()] [true] (hrun 5 (accountInit true 200 (set household
        (.person () .grossIncome) (.num 1000) (init (fun _ => 2020) (fun _ => none) w))) ops)
        = (none, t) → w.accounts () = [true] → w.txns true = [] →
      Dict.get? (t.hist (.person () .taxDeduction)) 2020
        = Dict.get? (t.hist (.account true .taxDeduction)) 2020 := by
  intro h
  have := h { home with accounts := fun _ => [true] }
    [.read (.person () .taxDeduction), .addTransaction true 40 (.str "start")] _ (by
      intro op hop
      simp only [List.mem_cons, List.not_mem_nil, or_false] at hop
      rcases hop with rfl | rfl
      · exact .inl ⟨_, rfl⟩
      · exact .inr ⟨_, _, _, rfl⟩) (Prod.ext (by decide +kernel) rfl) rfl rfl
  revert this
  decide +kernel

/-- **C83** (refuted: "in whatever order years are closed"). `Forecast.next_year` closes people's years
before accounts'. If the accounts' years are closed first, the owner's taxable income on record for the
year is not the gross income and account income on record for it: it is put together from the accounts'
*next* year. -/
theorem C83_accounts_first_refuted :
    ¬ ∀ (w : World Unit Bool ℚ) (s t : HSt Unit Bool ℚ),
      accountsNextYear 5 2021 [false] (hrun 5 (accountInit false 100 (set household
        (.person () .grossIncome) (.num 1000) (init (fun _ => 2020) (fun _ => none) w)))
          [.addTransaction false (-10) (.num (1 / 2))]) = (none, s) →
      peopleNextYear 5 2021 [()] s = (none, t) → w.accounts () = [false] → w.txns false = [] →
      ∀ g x, Dict.get? (t.hist (.person () .grossIncome)) 2020 = some (.num g) →
        Dict.get? (t.hist (.account false .taxableIncome)) 2020 = some (.num x) →
        Dict.get? (t.hist (.person () .taxableIncome)) 2020 = some (.num (g + x)) := by
  intro h
  have := h { home with accounts := fun _ => [false] } _ _ (Prod.ext (by decide +kernel) rfl)
    (Prod.ext (by decide +kernel) rfl) rfl rfl 1000 (19 / 4) (by decide +kernel) (by decide +kernel)
  revert this
  decide +kernel

theorem catchUp_year {n : ℕ} (hn : 5 ≤ n) (i : N) : ∀ (m : ℕ) {s t : HSt N A K},
    catchUp n i m s = (none, t) → ∀ o, t.year o = if o = .person i then s.year o + m else s.year o := by
  intro m
  induction m with
  | zero => intro s t h o; cases h; simp
  | succ m ih =>
    intro s t h o
    simp only [catchUp] at h
    cases hr : nextYear household n (.person i) s with
    | mk x u =>
      rw [hr] at h
      cases x with
      | some e => simp at h
      | none =>
        simp only at h
        rw [ih h o, (nextYear_closed hn hr).1.year o]
        by_cases ho : o = .person i
        · subst ho; simp only [if_true]; push_cast; ring
        · simp only [if_neg ho]

/-- **C83** (owners are brought along). Closing an account's year takes the account to the next year,
its owner to the year the account was in, if the owner was behind, and nobody else anywhere. -/
theorem C83_owner_not_left_behind (n : ℕ) (hn : 5 ≤ n) (a : A) (s t : HSt N A K)
    (h : accountNextYear n a s = (none, t)) (o : Who N A) :
    t.year o = if o = .account a then s.year o + 1
      else match s.world.owner a with
        | some i => if o = .person i then max (s.year o) (s.year (.account a)) else s.year o
        | none => s.year o := by
  have close : ∀ u, closeAccount n a u = (none, t) →
      t.year o = if o = .account a then u.year o + 1 else u.year o := by
    intro u hu
    simp only [closeAccount] at hu
    cases hr : nextYear household n (.account a) u with
    | mk x v =>
      rw [hr] at hu
      cases x with
      | some e => simp at hu
      | none =>
        simp only [Prod.mk.injEq, true_and] at hu
        subst hu
        show v.year o = _
        rw [(nextYear_closed hn hr).1.year o]
        by_cases ho : o = .account a
        · subst ho; simp
        · simp only [if_neg ho]
  simp only [accountNextYear] at h
  cases hw : s.world.owner a with
  | none => rw [hw] at h; exact close s h
  | some i =>
    rw [hw] at h
    simp only at h
    cases hr : catchUp n i (s.year (.account a) - s.year (.person i)).toNat s with
    | mk x u =>
      rw [hr] at h
      cases x with
      | some e => simp at h
      | none =>
        rw [close u h, catchUp_year hn i _ hr o]
        by_cases ho : o = .account a
        · subst ho; simp
        · simp only [if_neg ho]
          by_cases hp : o = .person i
          · subst hp
            simp only [if_true]
            rw [max_def]
            split <;> omega
          · simp only [if_neg hp]

/-- The plain account is a year ahead of its owner, who then catches up. -/
example : let s := hrun 5 homeDec [.accountNextYear false]
    (s.year (.account false) = 2021 ∧ s.year (.person ()) = 2020) ∧
    (accountNextYear 5 false s).1 = none ∧
    (accountNextYear 5 false s).2.year (.account false) = 2022 ∧
    (accountNextYear 5 false s).2.year (.person ()) = 2021 ∧
    (accountNextYear 5 false s).2.year (.account true) = 2020 := by
  decide +kernel

end Forecaster.Recorded
