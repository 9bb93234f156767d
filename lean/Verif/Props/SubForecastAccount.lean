import Verif.Props.SubForecast

/-!
# C59, C60: taking money from an account; `time_to_balance`
-/

set_option linter.unusedSectionVars false

namespace Forecaster.SubForecast

open Forecaster Forecaster.Timing Forecaster.Account

variable {K : Type} [Field K] [LinearOrder K] [IsStrictOrderedRing K]
variable {P : Type} [DecidableEq P]
variable (ttv : Acct K → K → K → Except PyErr (Ext K)) (default : Dict K K)

/-- Specification: from date `u` on, at `when` and at the date of every transaction of the
account, the account's own `max_outflow` allows a withdrawal of `value` (outflows are
negative). -/
def CanPay (L : Limits K) (a : Acct K) (when value u : K) : Prop :=
  ∀ r, (r = when ∨ r ∈ Dict.keys a.txns) → u ≤ r →
    ∃ m, maxOutflow L a (.num r) = .ok m ∧ m ≤ .fin (-value)

/-! ### Helper lemmas -/

theorem negExt_ge {m : Ext K} {v : K} : .fin v ≤ negExt m ↔ m ≤ .fin (-v) := by
  cases m with
  | negInf => simp [negExt]
  | posInf => simp [negExt]
  | fin x => simp only [negExt, Ext.fin_le_fin]; constructor <;> intro h <;> linarith

theorem no_between {l : List K} (h : l.Pairwise (· ≤ ·)) {pr : K × K} (hp : pr ∈ l.zip l.tail)
    {x : K} (hx : x ∈ l) : x ≤ pr.1 ∨ pr.2 ≤ x := by
  induction l with
  | nil => simp at hp
  | cons a l ih =>
    cases l with
    | nil => simp at hp
    | cons b l =>
      simp only [List.tail_cons, List.zip_cons_cons, List.mem_cons] at hp
      rw [List.pairwise_cons] at h
      rcases hp with rfl | hp
      · rcases List.mem_cons.1 hx with rfl | hx
        · exact .inl (le_refl _)
        · right
          rcases List.mem_cons.1 hx with rfl | hx
          · exact le_refl _
          · exact (List.pairwise_cons.1 h.2).1 x hx
      · rcases List.mem_cons.1 hx with rfl | hx
        · left
          have : pr.1 ∈ b :: l := (List.of_mem_zip hp).1
          exact h.1 _ this
        · exact ih h.2 (by simpa using hp) hx

/-- `k` lies strictly between two consecutive material dates at which the amount available
passes `value`. -/
def Straddled (orig : Dict K (Ext K)) (pairs : List (K × K)) (value k : K) : Prop :=
  ∃ pr ∈ pairs, pr.1 < k ∧ k < pr.2 ∧ ∃ x y, Dict.get? orig pr.1 = some x ∧
    Dict.get? orig pr.2 = some y ∧ ((y > .fin value ∧ x < .fin value) ∨
      (y < .fin value ∧ x > .fin value))

structure AccInv (orig acc : Dict K (Ext K)) (pairs : List (K × K)) (value : K) : Prop where
  wf : Dict.WF acc
  old : ∀ k ∈ Dict.keys orig, Dict.get? acc k = Dict.get? orig k
  new : ∀ k ∈ Dict.keys acc, k ∈ Dict.keys orig ∨ Straddled orig pairs value k

theorem look_eq {κ ν : Type} [DecidableEq κ] {d : Dict κ ν} {k : κ} {v : ν}
    (h : look d k = .ok v) : Dict.get? d k = some v := by
  unfold look at h
  cases hg : Dict.get? d k with
  | none => rw [hg] at h; cases h
  | some w => rw [hg] at h; cases h; rfl

theorem interpolate_inv {L : Limits K} {a : Acct K} {value : K} {orig acc acc' : Dict K (Ext K)}
    {pairs : List (K × K)} {pr : K × K} (hpr : pr ∈ pairs)
    (hk : pr.1 ∈ Dict.keys orig ∧ pr.2 ∈ Dict.keys orig)
    (hgap : ∀ k ∈ Dict.keys orig, k ≤ pr.1 ∨ pr.2 ≤ k)
    (hi : AccInv orig acc pairs value)
    (h : interpolate ttv L a value acc pr = .ok acc') : AccInv orig acc' pairs value := by
  unfold interpolate at h
  cases h1 : look acc pr.1 with
  | error e => rw [h1] at h; simp at h
  | ok x =>
    cases h2 : look acc pr.2 with
    | error e => rw [h1, h2] at h; simp at h
    | ok y =>
      rw [h1, h2] at h
      simp only [ok_bind] at h
      split_ifs at h with hc
      · cases h3 : timeToBalance ttv a value (a.txns.length + 1) pr.1 with
        | error e => rw [h3] at h; simp at h
        | ok time =>
          rw [h3, ok_bind] at h
          cases time with
          | negInf => cases h; exact hi
          | posInf => cases h; exact hi
          | fin t =>
            simp only at h
            split_ifs at h with ht
            · cases h4 : maxOutflows L a { timing := some (.scalar (.num t)) } with
              | error e => rw [h4] at h; simp at h
              | ok m =>
                rw [h4, ok_bind] at h
                cases h
                refine ⟨Dict.wf_set hi.wf _ _, fun k hk' => ?_, fun k hk' => ?_⟩
                · rw [Dict.get?_set_ne, hi.old k hk']
                  rintro rfl
                  rcases hgap t hk' with h5 | h5
                  · exact absurd ht.1 (not_lt.2 h5)
                  · exact absurd ht.2 (not_lt.2 h5)
                · rcases Dict.mem_keys_set.1 hk' with rfl | hk'
                  · right
                    refine ⟨pr, hpr, ht.1, ht.2, x, y, ?_, ?_, hc⟩
                    · rw [← hi.old _ hk.1]; exact look_eq h1
                    · rw [← hi.old _ hk.2]; exact look_eq h2
                  · exact hi.new k hk'
            · cases h; exact hi
      · cases h; exact hi

theorem foldlM_inv {L : Limits K} {a : Acct K} {value : K} {orig acc acc' : Dict K (Ext K)}
    {all pairs : List (K × K)} (hsub : ∀ pr ∈ pairs, pr ∈ all)
    (hk : ∀ pr ∈ all, pr.1 ∈ Dict.keys orig ∧ pr.2 ∈ Dict.keys orig)
    (hgap : ∀ pr ∈ all, ∀ k ∈ Dict.keys orig, k ≤ pr.1 ∨ pr.2 ≤ k)
    (hi : AccInv orig acc all value)
    (h : pairs.foldlM (interpolate ttv L a value) acc = .ok acc') :
    AccInv orig acc' all value := by
  induction pairs generalizing acc with
  | nil => simp only [List.foldlM_nil, except_pure, Except.ok.injEq] at h; subst h; exact hi
  | cons pr pairs ih =>
    rw [List.foldlM_cons] at h
    cases h1 : interpolate ttv L a value acc pr with
    | error e => rw [h1] at h; simp at h
    | ok acc1 =>
      rw [h1, ok_bind] at h
      have hpr := hsub pr (by simp)
      exact ih (fun p hp => hsub p (by simp [hp]))
        (interpolate_inv ttv hpr (hk pr hpr) (hgap pr hpr) hi h1) h

theorem earliest_account {L : Limits K} {a : Acct K} {when value : K} {acc : Dict K (Ext K)}
    (h : accumAccount ttv L a when value = .ok acc) :
    let w := earliest acc value when
    let material := fun u => (u = when ∨ u ∈ Dict.keys a.txns) ∧ when ≤ u
    ((∃ u, material u ∧ CanPay L a when value u) →
      CanPay L a when value w ∧ ∀ u, material u → CanPay L a when value u → w ≤ u) ∧
    ((¬ ∃ u, material u ∧ CanPay L a when value u) → w = when) := by
  intro w material
  unfold accumAccount at h
  cases h1 : (materialTimes a.txns when).dedup.mapM (accumEntry L a) with
  | error e => rw [h1] at h; simp at h
  | ok orig =>
    rw [h1] at h
    simp only [ok_bind] at h
    obtain ⟨hkeys, hent⟩ := mapM_accumEntry h1
    have hmat : ∀ u, u ∈ Dict.keys orig ↔ material u := by
      intro u
      rw [hkeys, List.mem_dedup]
      simp only [materialTimes, List.mem_filter, List.mem_cons, decide_eq_true_eq, ge_iff_le,
        material]
    have hwfo : Dict.WF orig := by
      unfold Dict.WF; rw [hkeys]; exact List.nodup_dedup _
    -- the value at a material date
    have hval : ∀ u ∈ Dict.keys orig, ∃ m, maxOutflow L a (.num u) = .ok m ∧
        Dict.get? orig u = some (negExt m) := by
      intro u hu
      obtain ⟨x, hx⟩ := Dict.mem_keys_iff.1 hu
      have := hent _ (Dict.mem_of_get? hx)
      unfold accumEntry at this
      cases h5 : maxOutflow L a (.num u) with
      | error e => rw [h5] at this; simp at this
      | ok m => rw [h5, ok_bind] at this; cases this; exact ⟨m, rfl, hx⟩
    set times := (Dict.keys orig).insertionSort (· ≤ ·) with htimes
    have hmemt : ∀ k, k ∈ times ↔ k ∈ Dict.keys orig := fun k =>
      (List.perm_insertionSort _ _).mem_iff
    have hpk : ∀ pr ∈ times.zip times.tail, pr.1 ∈ Dict.keys orig ∧ pr.2 ∈ Dict.keys orig := by
      intro pr hpr
      have := List.of_mem_zip hpr
      exact ⟨(hmemt _).1 this.1, (hmemt _).1 (List.mem_of_mem_tail this.2)⟩
    have hgap : ∀ pr ∈ times.zip times.tail, ∀ k ∈ Dict.keys orig, k ≤ pr.1 ∨ pr.2 ≤ k := by
      intro pr hpr k hk
      exact no_between (List.pairwise_insertionSort (· ≤ ·) _) hpr ((hmemt k).2 hk)
    have hinv : AccInv orig acc (times.zip times.tail) value :=
      foldlM_inv ttv (fun pr hp => hp) hpk hgap
        ⟨hwfo, fun k _ => rfl, fun k hk => .inl hk⟩ h
    -- eligibility of any key of `acc` amounts to `CanPay`
    have helig : ∀ u ∈ Dict.keys acc, (∀ kv ∈ acc, kv.1 ≥ u → kv.2 ≥ Ext.fin value) →
        CanPay L a when value u := by
      intro u hu hall r hr hur
      have hwu : when ≤ u := by
        rcases hinv.new u hu with h5 | ⟨pr, hpr, h5, -, -⟩
        · exact ((hmat u).1 h5).2
        · exact ((hmat _).1 (hpk pr hpr).1).2.trans h5.le
      have hro : r ∈ Dict.keys orig := (hmat r).2 ⟨hr, hwu.trans hur⟩
      obtain ⟨m, hm1, hm2⟩ := hval r hro
      refine ⟨m, hm1, negExt_ge.1 ?_⟩
      have := hinv.old r hro
      rw [hm2] at this
      exact hall _ (Dict.mem_of_get? this) hur
    have helig' : ∀ u, material u → CanPay L a when value u →
        ∀ kv ∈ acc, kv.1 ≥ u → kv.2 ≥ Ext.fin value := by
      intro u hu hcan kv hkv hge
      have hget := Dict.get?_of_mem hinv.wf hkv
      have horig : ∀ k ∈ Dict.keys orig, u ≤ k → ∃ x, Dict.get? orig k = some x ∧
          Ext.fin value ≤ x := by
        intro k hk huk
        obtain ⟨m, hm1, hm2⟩ := hval k hk
        obtain ⟨m', hm3, hm4⟩ := hcan k ((hmat k).1 hk).1 huk
        rw [hm1] at hm3
        cases hm3
        exact ⟨_, hm2, negExt_ge.2 hm4⟩
      rcases hinv.new kv.1 (Dict.mem_keys_of_mem hkv) with h5 | ⟨pr, hpr, h6, h7, x, y, hx, hy, h8⟩
      · obtain ⟨x, hx, hx'⟩ := horig kv.1 h5 hge
        rw [hinv.old _ h5, hx] at hget
        cases hget
        exact hx'
      · exfalso
        have hup : u ≤ pr.1 := by
          rcases hgap pr hpr u ((hmat u).2 hu) with h9 | h9
          · exact h9
          · exact absurd (hge : u ≤ kv.1) (not_le.2 (h7.trans_le h9))
        have huq : u ≤ pr.2 := hup.trans (h6.trans h7).le
        obtain ⟨x', hx1, hx2⟩ := horig pr.1 (hpk pr hpr).1 hup
        obtain ⟨y', hy1, hy2⟩ := horig pr.2 (hpk pr hpr).2 huq
        rw [hx] at hx1; cases hx1
        rw [hy] at hy1; cases hy1
        rcases h8 with ⟨-, h9⟩ | ⟨h9, -⟩
        · exact absurd hx2 (not_le.2 h9)
        · exact absurd hy2 (not_le.2 h9)
    have hin : ∀ u, material u → CanPay L a when value u → u ∈ (Dict.keys acc).filter fun t =>
        decide (∀ kv ∈ acc, kv.1 ≥ t → kv.2 ≥ Ext.fin value) := by
      intro u hu hc
      rw [List.mem_filter]
      refine ⟨?_, by simpa using helig' u hu hc⟩
      have := hinv.old u ((hmat u).2 hu)
      obtain ⟨m, -, hm⟩ := hval u ((hmat u).2 hu)
      rw [hm] at this
      exact Dict.mem_keys_of_mem (Dict.mem_of_get? this)
    have hw : w = ((Dict.keys acc).filter fun t =>
        decide (∀ kv ∈ acc, kv.1 ≥ t → kv.2 ≥ Ext.fin value)).min?.getD when := rfl
    rcases min?_getD_spec (l := (Dict.keys acc).filter fun t =>
        decide (∀ kv ∈ acc, kv.1 ≥ t → kv.2 ≥ Ext.fin value)) (w := when)
      with ⟨hnil, h5⟩ | ⟨hmem, hmin⟩
    · rw [← hw] at h5
      refine ⟨?_, fun _ => h5⟩
      rintro ⟨u, hu, hc⟩
      have := hin u hu hc
      rw [hnil] at this; simp at this
    · rw [← hw] at hmem hmin
      have hmem' := List.mem_filter.1 hmem
      have hcan := helig w hmem'.1 (by simpa using hmem'.2)
      refine ⟨fun _ => ⟨hcan, fun u hu hc => hmin u (hin u hu hc)⟩, fun hno => ?_⟩
      exfalso
      apply hno
      rcases hinv.new w hmem'.1 with h6 | ⟨pr, hpr, h6, h7, -⟩
      · exact ⟨w, (hmat w).1 h6, hcan⟩
      · refine ⟨pr.2, (hmat _).1 (hpk pr hpr).2, fun r hr hge => hcan r hr (h7.le.trans hge)⟩

/-- The amount at a date that was added is what `max_outflows` gives for it. -/
def Priced (L : Limits K) (a : Acct K) (orig acc : Dict K (Ext K)) : Prop :=
  ∀ k ∈ Dict.keys acc, k ∈ Dict.keys orig ∨ 0 < k ∧
    ∃ m, maxOutflows L a { timing := some (.scalar (.num k)) } = .ok m ∧
      Dict.get? acc k = some (negExt ((Dict.vals m).foldl Ext.add (.fin 0)))

theorem interpolate_priced {L : Limits K} {a : Acct K} {value : K} {orig acc acc' : Dict K (Ext K)}
    {pr : K × K} (h0 : 0 ≤ pr.1) (hi : Priced L a orig acc)
    (h : interpolate ttv L a value acc pr = .ok acc') : Priced L a orig acc' := by
  unfold interpolate at h
  cases h1 : look acc pr.1 with
  | error e => rw [h1] at h; simp at h
  | ok x =>
    cases h2 : look acc pr.2 with
    | error e => rw [h1, h2] at h; simp at h
    | ok y =>
      rw [h1, h2] at h
      simp only [ok_bind] at h
      split_ifs at h with hc
      · cases h3 : timeToBalance ttv a value (a.txns.length + 1) pr.1 with
        | error e => rw [h3] at h; simp at h
        | ok time =>
          rw [h3, ok_bind] at h
          cases time with
          | negInf => cases h; exact hi
          | posInf => cases h; exact hi
          | fin t =>
            simp only at h
            split_ifs at h with ht
            · cases h4 : maxOutflows L a { timing := some (.scalar (.num t)) } with
              | error e => rw [h4] at h; simp at h
              | ok m =>
                rw [h4, ok_bind] at h
                cases h
                intro k hk
                by_cases hkt : t = k
                · subst hkt
                  exact .inr ⟨h0.trans_lt ht.1, m, h4, by rw [Dict.get?_set, if_pos rfl]⟩
                · rcases Dict.mem_keys_set.1 hk with rfl | hk
                  · exact absurd rfl hkt
                  · rw [Dict.get?_set, if_neg hkt]
                    exact hi k hk
            · cases h; exact hi
      · cases h; exact hi

/-- With one date, `max_outflows` gives one amount. -/
theorem maxOutflows_single {L : Limits K} {a : Acct K} {t : K} (h0 : 0 < t) {m : Dict K (Ext K)}
    (h : maxOutflows L a { timing := some (.scalar (.num t)) } = .ok m) :
    ∃ x, m = [(t, x)] ∧ (Dict.vals m).foldl Ext.add (.fin 0) = x := by
  have hf : frequencyConv (.num 1) = .ok (some 1) := by decide +kernel
  unfold maxOutflows transactionsToBalance at h
  cases hr : balanceAtTime a (.str "end") none with
  | error e => rw [hr] at h; cases h
  | ok ref =>
    rw [hr, ok_bind] at h
    simp only at h
    cases hw : whenConv (.num t) with
    | error e =>
      simp [resolveTiming, falsy, h0.ne', Timing.init, initScalar, hw] at h
    | ok t' =>
      obtain rfl : t' = t := by
        unfold whenConv at hw
        simp only at hw
        split_ifs at hw
        cases hw
        rfl
      have hm : resolveTiming a (some (.scalar (.num t'))) = .ok [(t', 1)] := by
        simp [resolveTiming, falsy, h0.ne', Timing.init, initScalar, hw, hf, Dict.set]
      have hn : normalizedWeights [(t', (1 : K))] = .ok [(t', 1)] := by
        simp [normalizedWeights, Dict.total]
      rw [hm, ok_bind, hn, ok_bind] at h
      cases hd : divExt (Ext.subFin (Option.getD none (Ext.fin 0)) ref)
          (weightedAccum a.A [(t', (1 : K))]) with
      | error e => rw [hd] at h; cases h
      | ok total =>
        rw [hd, ok_bind] at h
        cases h
        refine ⟨_, rfl, ?_⟩
        simp only [Dict.vals, Dict.mapVals, List.map_cons, List.map_nil, List.foldl_cons, List.foldl_nil]
        generalize (Ext.mulFin _ _ : Ext K) = y
        cases y <;> simp [Ext.add]

theorem earliest_priced {L : Limits K} {a : Acct K} {when value : K} (h0 : 0 ≤ when)
    {acc : Dict K (Ext K)}
    (h : accumAccount ttv L a when value = .ok acc) :
    earliest acc value when = when ∨ earliest acc value when ∈ Dict.keys a.txns ∨
      ∃ x, maxOutflows L a { timing := some (.scalar (.num (earliest acc value when))) } =
          .ok [(earliest acc value when, x)] ∧ x ≤ .fin (-value) := by
  unfold accumAccount at h
  cases h1 : (materialTimes a.txns when).dedup.mapM (accumEntry L a) with
  | error e => rw [h1] at h; simp at h
  | ok orig =>
    rw [h1] at h
    simp only [ok_bind] at h
    obtain ⟨hkeys, -⟩ := mapM_accumEntry h1
    have hpr : Priced L a orig acc := by
      have key : ∀ (pairs : List (K × K)), (∀ pr ∈ pairs, 0 ≤ pr.1) →
          ∀ acc0 : Dict K (Ext K), Priced L a orig acc0 →
          pairs.foldlM (interpolate ttv L a value) acc0 = .ok acc → Priced L a orig acc := by
        intro pairs
        induction pairs with
        | nil =>
          intro _ acc0 h0 h
          simp only [List.foldlM_nil, except_pure, Except.ok.injEq] at h
          subst h
          exact h0
        | cons pr pairs ih =>
          intro hn acc0 h0 h
          rw [List.foldlM_cons] at h
          cases h2 : interpolate ttv L a value acc0 pr with
          | error e => rw [h2] at h; simp at h
          | ok acc1 =>
            rw [h2, ok_bind] at h
            exact ih (fun p hp => hn p (by simp [hp])) acc1
              (interpolate_priced ttv (hn pr (by simp)) h0 h2) h
      refine key _ (fun pr hpr => ?_) _ (fun k hk => .inl hk) h
      have h2 := (List.perm_insertionSort _ _).mem_iff.1 (List.of_mem_zip hpr).1
      rw [hkeys, List.mem_dedup] at h2
      simp only [materialTimes, List.mem_filter, decide_eq_true_eq] at h2
      exact h0.trans h2.2
    rcases min?_getD_spec (l := (Dict.keys acc).filter fun t =>
        decide (∀ kv ∈ acc, kv.1 ≥ t → kv.2 ≥ Ext.fin value)) (w := when)
      with ⟨-, h5⟩ | ⟨hmem, -⟩
    · exact .inl h5
    · have hmem' := List.mem_filter.1 hmem
      rcases hpr _ hmem'.1 with h6 | ⟨hpos, m, h6, h7⟩
      · rw [hkeys, List.mem_dedup] at h6
        simp only [materialTimes, List.mem_filter, List.mem_cons] at h6
        rcases h6.1 with h6 | h6
        · exact .inl h6
        · exact .inr (.inl h6)
      · right; right
        obtain ⟨x, rfl, h8⟩ := maxOutflows_single hpos h6
        refine ⟨x, h6, negExt_ge.1 ?_⟩
        rw [h8] at h7
        have h9 := hmem'.2
        simp only [decide_eq_true_eq] at h9
        exact h9 _ (Dict.mem_of_get? h7) le_rfl

/-! ### C59 -/

/-- **C59** (dates between the transactions). The transaction of `C59_account_source` is dated as
requested, or at a date of a transaction, or else at a date at which `max_outflows` allows a withdrawal
of `value`. -/
theorem C59_date_between {s s' : St P K} (hs : Good s) {p : P} {L : Limits K} {a : Acct K}
    (hp : s.pools p = .acct L a) {dst : Option P} (hdst : dst ≠ some p) {value when : K}
    (hv : 0 ≤ value) (h0 : 0 ≤ when) (h1 : when ≤ 1)
    (h : addTransaction ttv default s
      { value, timing := some (.scalar (.num when)), src := some p, dst } = (s', none)) :
    ∃ w, (∀ t, amount s' p t = amount s p t - if w = t then value else 0) ∧
      (w = when ∨ w ∈ Dict.keys a.txns ∨
        ∃ x, maxOutflows L a { timing := some (.scalar (.num w)) } = .ok [(w, x)] ∧
          x ≤ .fin (-value)) := by
  unfold addTransaction at h
  rw [resolve_scalar default h0 h1] at h
  have ho : orient ({ value, timing := some (.scalar (.num when)), src := some p, dst } : Req P K)
      = (value, some p, dst) := by
    unfold orient; rw [if_neg (not_lt.2 hv)]
  rw [ho] at h
  obtain ⟨s1, h2, h3⟩ := forEach_cons_ok h
  obtain rfl : s1 = s' := by cases h3; rfl
  simp only [Dict.total_cons, Dict.total_nil, add_zero, one_ne_zero, if_false, div_one,
    mul_one] at h2
  obtain ⟨w, hdate, hge, ha, -⟩ := add1_effect ttv hs h2
  simp only [dateFor, hp, shiftWhen, Bool.false_eq_true, if_false] at hdate
  cases hacc : accumAccount ttv L a when value with
  | error e => rw [hacc] at hdate; simp at hdate
  | ok acc =>
    rw [hacc, ok_bind] at hdate
    cases hdate
    refine ⟨_, fun t => ?_, earliest_priced ttv h0 hacc⟩
    rw [ha]
    simp [ind, hdst, sub_eq_add_neg]
    split <;> simp

/-- **C59** Money is taken from an `Account` (`value ≥ 0`, requested at `when`, timing not
strict).  Call a date *material* if it is `when` or a later transaction date.  If there is a
material date from which the account can pay `value` at every later material date, then the
transaction is dated no later than the first such date, at or after `when`, and the account
can pay `value` at every material date from then on.  If there is none, it is dated `when`. -/
theorem C59_account_source {s s' : St P K} (hs : Good s) {p : P} {L : Limits K} {a : Acct K}
    (hp : s.pools p = .acct L a) {dst : Option P} (hdst : dst ≠ some p) {value when : K}
    (hv : 0 ≤ value) (h0 : 0 ≤ when) (h1 : when ≤ 1)
    (h : addTransaction ttv default s
      { value, timing := some (.scalar (.num when)), src := some p, dst } = (s', none)) :
    ∃ w, when ≤ w ∧
      (∀ t, amount s' p t = amount s p t - if w = t then value else 0) ∧
      (∀ p', dst = some p' → ∀ t, amount s' p' t = amount s p' t + if w = t then value else 0) ∧
      ((∃ u, ((u = when ∨ u ∈ Dict.keys a.txns) ∧ when ≤ u) ∧ CanPay L a when value u) →
        CanPay L a when value w ∧
        ∀ u, ((u = when ∨ u ∈ Dict.keys a.txns) ∧ when ≤ u) → CanPay L a when value u → w ≤ u) ∧
      ((¬ ∃ u, ((u = when ∨ u ∈ Dict.keys a.txns) ∧ when ≤ u) ∧ CanPay L a when value u) →
        w = when) := by
  unfold addTransaction at h
  rw [resolve_scalar default h0 h1] at h
  have ho : orient ({ value, timing := some (.scalar (.num when)), src := some p, dst } : Req P K)
      = (value, some p, dst) := by
    unfold orient; rw [if_neg (not_lt.2 hv)]
  rw [ho] at h
  obtain ⟨s1, h2, h3⟩ := forEach_cons_ok h
  obtain rfl : s1 = s' := by cases h3; rfl
  simp only [Dict.total_cons, Dict.total_nil, add_zero, one_ne_zero, if_false, div_one,
    mul_one] at h2
  obtain ⟨w, hdate, hge, ha, -⟩ := add1_effect ttv hs h2
  simp only [dateFor, hp, shiftWhen, Bool.false_eq_true, if_false] at hdate
  cases hacc : accumAccount ttv L a when value with
  | error e => rw [hacc] at hdate; simp at hdate
  | ok acc =>
    rw [hacc, ok_bind] at hdate
    cases hdate
    have hspec := earliest_account ttv hacc
    refine ⟨_, hge, fun t => ?_, fun p' hp' t => ?_, hspec.1, hspec.2⟩
    · rw [ha]
      simp [ind, hdst, sub_eq_add_neg]
      split <;> simp
    · rw [ha]
      have : some p ≠ some p' := by rintro h5; exact hdst (hp'.trans h5.symm)
      simp [ind, hp', this]

/-- An account with 100 at the start of the year that doubles over the year (only the
distances 0 and 1 matter here), and a withdrawal of 100 at the end of the year. -/
def exDoubling : Unit → Pool ℚ := fun _ =>
  .acct plainLimits
    { Account.init 2000 100 (fun _ t => 1 + t) [(1 / 2, 1)] with txns := [(1, -100)] }

def take100 : Req Unit ℚ := { value := 100, timing := some (.scalar (.num 0)), src := some () }

/-- **C59** (what it does not give). "The account can pay `value` at every later date" does
not mean that it is not overdrawn: the growth forgone by withdrawing early is not taken into
account.  Here 100 is withdrawn at the start of the year, which leaves -100 at the end of
the year, although withdrawing at the end of the year would leave nothing owing. -/
theorem C59_growth_refuted :
    ∃ (s s' : St Unit ℚ) (L : Limits ℚ) (a a' : Acct ℚ),
      Good s ∧ s.pools () = .acct L a ∧ addTransaction exTtv [] s take100 = (s', none) ∧
      s'.pools () = .acct L a' ∧
      balanceAtTime a' (.num 1) none = .ok (-100) ∧
      balanceAtTime { a with txns := [(1, -200)] } (.num 1) none = .ok 0 := by
  have hex : (addTransaction exTtv [] (fresh exDoubling) take100).2 = none ∧
      ((addTransaction exTtv [] (fresh exDoubling) take100).1.pools ()).txns
        = [(1, -100), (0, -100)] := by decide +kernel
  have hg : Good (fresh exDoubling) := good_fresh (fun _ => by
    have hi := inv_init (K := ℚ) 2000 100 (fun _ t => 1 + t) [(1 / 2, 1)]
    show Account.Inv _
    refine ⟨⟨?_, ?_⟩, hi.future, hi.opening⟩
    · unfold Dict.WF; decide +kernel
    · intro k hk
      have : k = 1 := by simpa using hk
      subst this; norm_num)
  obtain ⟨s', hs'⟩ : ∃ s', addTransaction exTtv [] (fresh exDoubling) take100 = (s', none) :=
    ⟨_, Prod.ext rfl hex.1⟩
  have hk := kind_of_legs (legs_addTransaction exTtv [] (fresh exDoubling) take100) hg ()
  rw [hs'] at hk
  have htx := hex.2
  rw [hs'] at htx
  simp only at hk htx
  cases hq : s'.pools () with
  | dict f d => rw [hq] at hk; exact absurd hk id
  | acct L a' =>
    rw [hq] at hk htx
    obtain ⟨rfl, hk⟩ := hk
    have ha' : a' = { Account.init 2000 100 (fun _ t => 1 + t) [(1 / 2, 1)] with
        txns := [((1 : ℚ), (-100 : ℚ)), (0, -100)] } := by
      have h1 : a'.txns = [((1 : ℚ), (-100 : ℚ)), (0, -100)] := htx
      have h2 : a' = { ({ a' with txns := [] } : Acct ℚ) with txns := a'.txns } := rfl
      rw [h2, ← hk, h1]
    refine ⟨_, s', plainLimits, _, a', hg, rfl, hs', hq, ?_, ?_⟩
    · rw [ha']; decide +kernel
    · decide +kernel

/-- The hypotheses of `C59_account_source` are met by the account of `exPools`. -/
example : (addTransaction exTtv [] (fresh exPools)
    { value := 70, timing := some (.scalar (.num (1 / 4))), src := some false,
      dst := some true }).2 = none := by decide +kernel

/-- An account that grows by half in half a year: 150 are there at mid-year, and are taken then. -/
def exRipening : Unit → Pool ℚ := fun _ =>
  .acct plainLimits
    { Account.init 2000 100 (fun _ t => if t = 1 then 9 / 4 else if t = 1 / 2 then 3 / 2 else 1)
        [(1 / 2, 1)] with txns := [(1, 0)] }

example : ((addTransaction (fun _ _ _ => .ok (.fin (1 / 2))) [] (fresh exRipening)
    { value := 150, timing := some (.scalar (.num 0)), src := some () }).1.pools ()).txns =
      [(1, 0), (1 / 2, -150)] := by decide +kernel

/-! ### C60: `time_to_balance` -/

/-- Specification: the next transaction of the account after `w`, if there is one, is not
before `T`. -/
def NoTxnBefore (a : Acct K) (w T : K) : Prop := ∀ k ∈ Dict.keys a.txns, w < k → T ≤ k

/-- **C60** (what `time_to_balance` finds). If `time_to_value` is exact and
`time_to_balance(value, when)` returns the finite date `T`, then there is a date `w` (`when`
itself or the date of a later transaction) such that no transaction falls between `w` and
`T`, and the account's balance at `w`, grown (or discounted) to `T`, is `value`.  If
moreover `T` is not before `w` and is a date of the year with no transaction of its own,
the balance at `T` is `value`. -/
theorem C60_time_to_balance {a : Acct K} (ha : Inv a) (hA : IsGrowth a.A) {value : K}
    (httv : ∀ b t, ttv a b value = .ok (.fin t) → b * a.A t = value)
    {n : ℕ} {when T : K} (h : timeToBalance ttv a value n when = .ok (.fin T)) :
    ∃ w b, (w = when ∨ (w ∈ Dict.keys a.txns ∧ when < w)) ∧ NoTxnBefore a w T ∧
      balanceAtTime a (.num w) none = .ok b ∧ b * a.A (T - w) = value ∧
      (w ≤ T → T ≤ 1 → (T ∈ Dict.keys a.txns → T = w) →
        balanceAtTime a (.num T) none = .ok value) := by
  induction n generalizing when with
  | zero => simp [timeToBalance] at h
  | succ n ih =>
    rw [timeToBalance] at h
    cases hw : whenConv (.num when) with
    | error e => rw [hw] at h; simp at h
    | ok w =>
      have hww : w = when := by
        unfold whenConv at hw; simp only at hw; split_ifs at hw; cases hw; rfl
      subst hww
      have hr := whenConv_rng hw
      rw [hw, ok_bind] at h
      cases hb : balanceAtTime a (.num w) none with
      | error e => rw [hb] at h; simp at h
      | ok b =>
        rw [hb, ok_bind] at h
        cases ht : ttv a b value with
        | error e => rw [ht] at h; simp at h
        | ok dt =>
          rw [ht] at h
          simp only [ok_bind] at h
          -- what happens when the search stops here
          have stop : Ext.add (.fin w) dt = .fin T → NoTxnBefore a w T →
              ∃ w' b, (w' = w ∨ (w' ∈ Dict.keys a.txns ∧ w < w')) ∧ NoTxnBefore a w' T ∧
                balanceAtTime a (.num w') none = .ok b ∧ b * a.A (T - w') = value ∧
                (w' ≤ T → T ≤ 1 → (T ∈ Dict.keys a.txns → T = w') →
                  balanceAtTime a (.num T) none = .ok value) := by
            intro hT hno
            cases dt with
            | negInf => simp [Ext.add] at hT
            | posInf => simp [Ext.add] at hT
            | fin t =>
              simp only [Ext.add, Ext.fin.injEq] at hT
              subst hT
              have hv := httv b t ht
              refine ⟨w, b, .inl rfl, hno, hb, by simpa using hv, fun h1 h2 h3 => ?_⟩
              have ht0 : 0 ≤ t := by linarith
              obtain ⟨ob, hob⟩ := ha.balance_ok
              have e1 := balanceAtTime_eq ha hob hr none (by simp)
              have e2 := balanceAtTime_eq ha hob (t := w + t) ⟨by linarith [hr.1], h2⟩ none
                (by simp)
              rw [e2]
              rw [hb] at e1
              have hbe := Except.ok.inj e1
              simp only [Option.getD_none, grown_nil, add_zero] at hbe ⊢
              congr 1
              rw [← hv, hbe]
              have hg : grown a.A a.txns (w + t) = grown a.A a.txns w * a.A t := by
                by_cases htz : t = 0
                · subst htz; rw [hA.zero]; simp
                have hmem : ∀ k ∈ Dict.keys a.txns, k ≤ w + t ↔ k ≤ w := by
                  intro k hk
                  constructor
                  · intro hkle
                    by_contra hc
                    have h4 := hno k hk (not_le.1 hc)
                    have h5 : w + t = k := le_antisymm h4 hkle
                    have h6 := h3 (h5 ▸ hk)
                    apply htz; linarith
                  · intro hkle; linarith
                revert hmem
                generalize a.txns = d
                intro hmem
                induction d with
                | nil => simp
                | cons kv d ihd =>
                  rw [grown_cons, grown_cons, ihd (fun k hk => hmem k (by simp [hk]))]
                  have := hmem kv.1 (by simp)
                  by_cases hkv : kv.1 ≤ w
                  · rw [if_pos hkv, if_pos (this.2 hkv)]
                    have : w + t - kv.1 = (w - kv.1) + t := by ring
                    rw [this, hA.add]; ring
                  · rw [if_neg hkv, if_neg (fun hc => hkv (this.1 hc))]; ring
              rw [hg, hA.add]; ring
          cases hm : ((Dict.keys a.txns).filter fun k => decide (k > w)).min? with
          | none =>
            rw [hm] at h
            simp only [Except.ok.injEq] at h
            apply stop h
            intro k hk hwk
            rw [List.min?_eq_none_iff, List.filter_eq_nil_iff] at hm
            exact absurd hwk (by simpa using hm k hk)
          | some nx =>
            rw [hm] at h
            simp only at h
            rw [List.min?_eq_some_iff] at hm
            have hnx := List.mem_filter.1 hm.1
            have hwn : w < nx := by simpa using hnx.2
            split_ifs at h with hlt
            · obtain ⟨w', b', h1, h2, h3⟩ := ih h
              refine ⟨w', b', .inr ?_, h2, h3⟩
              rcases h1 with rfl | ⟨h1, h1'⟩
              · exact ⟨hnx.1, hwn⟩
              · exact ⟨h1, hwn.trans h1'⟩
            · simp only [Except.ok.injEq] at h
              apply stop h
              intro k hk hwk
              rw [h] at hlt
              simp only [Ext.fin_lt_fin, not_lt] at hlt
              exact hlt.trans (hm.2 k (List.mem_filter.2 ⟨hk, by simpa using hwk⟩))

/-- **C60** (it terminates). The recursion of `time_to_balance` visits each transaction at
most once: the fuel of the model (number of transactions plus one) never runs out. -/
theorem C60_terminates {a : Acct K} (ha : Inv a) {value : K}
    (httv : ∀ b, ttv a b value ≠ .error .recursionError)
    {n : ℕ} {when : K} (h0 : 0 ≤ when) (h1 : when ≤ 1)
    (hn : ((Dict.keys a.txns).filter fun k => decide (k > when)).length < n) :
    timeToBalance ttv a value n when ≠ .error .recursionError := by
  induction n generalizing when with
  | zero => simp at hn
  | succ n ih =>
    rw [timeToBalance, whenConv_ok h0 h1, ok_bind]
    obtain ⟨ob, hob⟩ := ha.balance_ok
    rw [balanceAtTime_eq ha hob ⟨h0, h1⟩ none (by simp), ok_bind]
    cases ht : ttv a (ob * a.A when + grown a.A (none.getD []) when + grown a.A a.txns when)
        value with
    | error e => simp only [error_bind]; intro hc; cases hc; exact httv _ ht
    | ok dt =>
      simp only [ok_bind]
      cases hm : ((Dict.keys a.txns).filter fun k => decide (k > when)).min? with
      | none => simp
      | some nx =>
        simp only
        rw [List.min?_eq_some_iff] at hm
        have hnx := List.mem_filter.1 hm.1
        have hwn : when < nx := by simpa using hnx.2
        have hrng := ha.tx.rng nx hnx.1
        split_ifs with hlt
        · apply ih hrng.1 hrng.2
          have hsub : ((Dict.keys a.txns).filter fun k => decide (k > nx)).length
              < ((Dict.keys a.txns).filter fun k => decide (k > when)).length := by
            have : ((Dict.keys a.txns).filter fun k => decide (k > nx))
                = ((Dict.keys a.txns).filter fun k => decide (k > when)).filter
                    fun k => decide (k > nx) := by
              rw [List.filter_filter]
              apply List.filter_congr
              intro k _
              by_cases hk : k > nx
              · simp [hk, hwn.trans hk]
              · simp [hk]
            rw [this]
            apply List.length_filter_lt_length_iff_exists.2
            exact ⟨nx, hm.1, by simp⟩
          omega
        · simp

/-- An account with 100 in it and no growth to speak of: `time_to_value` never gets there,
except that the amount is there already. -/
def exFlat : Acct ℚ := { Account.init 2000 100 (fun _ _ => 1) [(1 / 2, 1)] with
  txns := [(1 / 2, 100)] }

/-- `time_to_value` at rate 0 (accounts/util.py:105-112). -/
def flatTtv : Acct ℚ → ℚ → ℚ → Except PyErr (Ext ℚ) := fun _ b v =>
  if b = 0 then .error .zeroDivisionError
  else if v / b < 0 then .error .valueError
  else if v / b = 1 then .ok (.fin 0) else if v / b < 1 then .ok .negInf else .ok .posInf

/-- **C60** (the documentation is wrong). The docstring promises "the earliest time at or
after `when` when the balance has reached `value`".  Here the balance first reaches 150 at
0.5, when 100 is deposited, but `time_to_balance(150)` returns minus infinity: from 200 the
account would have had 150 in the infinite past. -/
theorem C60_documentation_refuted :
    timeToBalance flatTtv exFlat 150 2 0 = .ok .negInf ∧
      balanceAtTime exFlat (.num (1 / 2)) none = .ok 200 ∧
      ∀ t, 0 ≤ t → t < 1 / 2 → balanceAtTime exFlat (.num t) none = .ok 100 := by
  refine ⟨by decide +kernel, by decide +kernel, fun t h0 h1 => ?_⟩
  have hi0 := inv_init (K := ℚ) 2000 100 (fun _ _ => 1) [(1 / 2, 1)]
  have hi : Inv exFlat := by
    refine ⟨⟨?_, ?_⟩, hi0.future, hi0.opening⟩
    · unfold Dict.WF; decide +kernel
    · intro k hk
      have : k = 1 / 2 := by simpa [exFlat] using hk
      subst this; norm_num
  have hb : balance exFlat = .ok 100 := by decide +kernel
  rw [balanceAtTime_eq hi hb ⟨h0, by linarith⟩ none (by simp)]
  have : ¬ (1 / 2 : ℚ) ≤ t := not_le.2 h1
  have hg : grown exFlat.A exFlat.txns t = 0 := by
    simp only [exFlat, grown_cons, if_neg this, grown_nil, add_zero]
  have hA : exFlat.A t = 1 := rfl
  rw [hg, hA]
  norm_num

/-- The hypotheses of `C60_time_to_balance` are met: the balance reaches 200 at 0.5. -/
example : IsGrowth exFlat.A := ⟨rfl, fun _ _ => by norm_num [exFlat, Acct.A, Account.init],
  fun _ => by norm_num [exFlat, Acct.A, Account.init]⟩
example : ∀ b t, flatTtv exFlat b 200 = .ok (.fin t) → b * exFlat.A t = 200 := by
  intro b t h
  have hA : exFlat.A t = 1 := rfl
  unfold flatTtv at h
  rw [hA, mul_one]
  split_ifs at h with h1 h2 h3 h4
  · rwa [div_eq_one_iff_eq h1, eq_comm] at h3
  · cases h
  · cases h
example : timeToBalance flatTtv exFlat 200 2 0 = .ok (.fin (1 / 2)) := by decide +kernel

end Forecaster.SubForecast
