import Verif.Props.Tax

/-!
# Tax tables do not depend on the history of queries (C30)
-/

set_option linter.unusedSectionVars false

namespace Forecaster.Tax

open Forecaster Forecaster.Inflation

theorem bind_ok_iff {α β : Type} {x : Except PyErr α} {f : α → Except PyErr β} {y : β} :
    (x >>= f) = .ok y ↔ ∃ a, x = .ok a ∧ f a = .ok y := by
  cases x <;> simp

variable {K : Type} [Field K] [LinearOrder K] [IsStrictOrderedRing K]

theorem scaleKeys_eq {c : K} (hc : c ≠ 0) {B : Dict K K} (hB : Dict.WF B) :
    scaleKeys c B = B.map fun kv => (kv.1 * c, kv.2) := by
  unfold scaleKeys
  have gen : ∀ (B : Dict K K) (acc : Dict K K), Dict.WF B →
      (∀ k ∈ Dict.keys B, k * c ∉ Dict.keys acc) →
      B.foldl (fun d kv => Dict.set d (kv.1 * c) kv.2) acc
        = acc ++ B.map fun kv => (kv.1 * c, kv.2) := by
    intro B
    induction B with
    | nil => intro acc _ _; simp
    | cons x B ih =>
      intro acc hw hk
      rw [List.foldl_cons, Dict.set_of_not_mem _ (hk x.1 (by simp)), ih _ (Dict.wf_cons.1 hw).2]
      · simp
      · intro k hkk hm
        rw [Dict.keys_append] at hm
        rcases List.mem_append.1 hm with h | h
        · exact hk k (by simp [hkk]) h
        · simp only [Dict.keys_cons, Dict.keys_nil, List.mem_singleton] at h
          have := mul_right_cancel₀ hc h
          subst this
          exact (Dict.wf_cons.1 hw).1 hkk
  simpa using gen B [] hB (by simp)

/-- The table of thresholds scaled by `c`. -/
def scaled (c : K) (B : Dict K K) : Dict K K := B.map fun kv => (kv.1 * c, kv.2)

theorem scaled_one (B : Dict K K) : scaled 1 B = B := by simp [scaled]

theorem scaled_scaled (c d : K) (B : Dict K K) : scaled d (scaled c B) = scaled (c * d) B := by
  simp [scaled, mul_assoc]

theorem wf_scaled {c : K} (hc : c ≠ 0) {B : Dict K K} (hB : Dict.WF B) : Dict.WF (scaled c B) := by
  have := wf_scaleKeys c B
  rw [scaleKeys_eq hc hB] at this; exact this

/-- The original year behind a cached year is that behind any year derived from it. -/
theorem nearest_trans {V W : Type} {br : Dict ℤ V} {S : Dict ℤ W}
    (hsub : ∀ k ∈ Dict.keys br, k ∈ Dict.keys S) {y k o : ℤ} (hy : y ∉ Dict.keys S)
    (hk : nearestYear S y = some k) (ho : nearestYear br k = some o) :
    nearestYear br y = some o := by
  obtain ⟨hk1, hk2⟩ := ((C09_nearest_year S y).2 k).1 hk
  obtain ⟨ho1, ho2⟩ := ((C09_nearest_year br k).2 o).1 ho
  rw [(C09_nearest_year br y).2 o]
  refine ⟨ho1, ?_⟩
  have hy' : y ∉ Dict.keys br := fun h => hy (hsub y h)
  have hoS := hsub o ho1
  rcases hk2 with rfl | ⟨-, h1, h2⟩ | ⟨h1, h2⟩
  · exact absurd hk1 hy
  · rcases ho2 with rfl | ⟨h3, h4, h5⟩ | ⟨h3, h4⟩
    · exact Or.inr (Or.inl ⟨hy', h1, fun j hj hlt => h2 j (hsub j hj) hlt⟩)
    · refine Or.inr (Or.inl ⟨hy', h4.trans h1, fun j hj hlt => ?_⟩)
      have := h2 j (hsub j hj) hlt
      rcases this.lt_or_eq with h | h
      · exact h5 j hj h
      · subst h; exact absurd hj h3
    · refine Or.inr (Or.inr ⟨?_, h4⟩)
      by_contra hge
      have hge := not_lt.1 hge
      rcases hge.lt_or_eq with h | h
      · have := h2 o hoS h; omega
      · subst h; exact hy hoS
  · rcases ho2 with rfl | ⟨-, h4, -⟩ | ⟨h3, h4⟩
    · exact Or.inr (Or.inr ⟨h1, fun j hj => h2 j (hsub j hj)⟩)
    · have := h2 o hoS; omega
    · exact Or.inr (Or.inr ⟨by omega, h4⟩)

/-- The setting of C30: the original tables and an inflation adjustment given by a positive
price index (what `build_inflation_adjust` and `Scenario` provide, see C10 and C11). -/
structure Setting (br : Dict ℤ (Dict K K)) (adj : Adjust K) (idx : ℤ → K) : Prop where
  args : Args br
  ne : br ≠ []
  pos : ∀ y, 0 < idx y
  adj : ∀ y b, adj y b = .ok (idx y / idx b)

/-- Specification of a year's table: the table of the nearest original year, thresholds scaled by
the price index, rates unchanged. -/
def IsTable (br : Dict ℤ (Dict K K)) (idx : ℤ → K) (y : ℤ) (B : Dict K K) : Prop :=
  ∃ o B0, nearestYear br y = some o ∧ Dict.get? br o = some B0 ∧
    B = B0.map fun kv => (kv.1 * (idx y / idx o), kv.2)

theorem IsTable.unique {br : Dict ℤ (Dict K K)} {idx : ℤ → K} {y : ℤ} {B B' : Dict K K}
    (h : IsTable br idx y B) (h' : IsTable br idx y B') : B = B' := by
  obtain ⟨o, B0, h1, h2, rfl⟩ := h
  obtain ⟨o', B0', h1', h2', rfl⟩ := h'
  rw [h1] at h1'; cases h1'
  rw [h2] at h2'; cases h2'; rfl

/-- The invariant of all histories without stray `accum` queries. -/
structure Good (br : Dict ℤ (Dict K K)) (pd cr : Dict ℤ K) (adj : Adjust K) (idx : ℤ → K)
    (t : Tax K) : Prop where
  inv : Inv t
  eadj : t.adjust = adj
  epd : t.personal = pd
  ecr : t.creditRates = cr
  sub : ∀ k ∈ Dict.keys br, k ∈ Dict.keys t.brackets
  tab : ∀ y B, Dict.get? t.brackets y = some B → IsTable br idx y B

theorem nearest_self {V : Type} {br : Dict ℤ V} {y : ℤ} (h : y ∈ Dict.keys br) :
    nearestYear br y = some y := by
  rw [(C09_nearest_year br y).2 y]; exact ⟨h, Or.inl rfl⟩

theorem taxBrackets_good {br : Dict ℤ (Dict K K)} {pd cr : Dict ℤ K} {adj : Adjust K}
    {idx : ℤ → K} (S : Setting br adj idx) {t : Tax K} (ht : Good br pd cr adj idx t) (y : ℤ) :
    ∃ B t', taxBrackets t y = .ok (B, t') ∧ IsTable br idx y B ∧ Good br pd cr adj idx t' := by
  cases hg : Dict.get? t.brackets y with
  | some B =>
    exact ⟨B, t, by unfold taxBrackets; rw [hg], ht.tab y B hg, ht⟩
  | none =>
    have hne : t.brackets ≠ [] := by
      intro h
      obtain ⟨x, hx⟩ := List.exists_mem_of_ne_nil _ S.ne
      have := ht.sub x.1 (Dict.mem_keys_of_mem hx)
      rw [h] at this; simp at this
    obtain ⟨k, hk⟩ : ∃ k, nearestYear t.brackets y = some k := by
      cases hn : nearestYear t.brackets y with
      | some k => exact ⟨k, rfl⟩
      | none => exact absurd ((C09_nearest_year _ _).1.1 hn) hne
    have hkm := (((C09_nearest_year _ _).2 k).1 hk).1
    obtain ⟨B0, hB0⟩ := Dict.mem_keys_iff.1 hkm
    obtain ⟨hw0, hne0, -⟩ := ht.inv.table k B0 hB0
    obtain ⟨o, Bo, ho1, ho2, hBo⟩ := ht.tab k B0 hB0
    have hc : idx y / idx k ≠ 0 := (div_pos (S.pos y) (S.pos k)).ne'
    have hsk : scaleKeys (idx y / idx k) B0 = Bo.map fun kv => (kv.1 * (idx y / idx o), kv.2) := by
      rw [scaleKeys_eq hc hw0, hBo]
      have := scaled_scaled (idx k / idx o) (idx y / idx k) Bo
      unfold scaled at this
      rw [this]
      have e : idx k / idx o * (idx y / idx k) = idx y / idx o := by
        have := (S.pos k).ne'; have := (S.pos o).ne'; field_simp
      rw [e]
    have hne' : scaleKeys (idx y / idx k) B0 ≠ [] := by
      rw [scaleKeys_eq hc hw0]; simpa using hne0
    obtain ⟨_, _, _, hacc⟩ := accumTable_eq (wf_scaleKeys (idx y / idx k) B0) hne'
    obtain ⟨t', ht'⟩ : ∃ t', addBrackets t (scaleKeys (idx y / idx k) B0) y = .ok t' := by
      unfold addBrackets; rw [hacc]; exact ⟨_, rfl⟩
    have hnear := nearest_trans ht.sub (Dict.get?_eq_none.1 hg) hk ho1
    obtain ⟨i1, i2, -, i4, i5, i6, i7⟩ := addBrackets_inv ht.inv (wf_scaleKeys _ _) ht'
    have htab : IsTable br idx y (scaleKeys (idx y / idx k) B0) := ⟨o, Bo, hnear, ho2, hsk⟩
    refine ⟨_, t', ?_, htab, ⟨i1, i6.trans ht.eadj, i4.trans ht.epd, i5.trans ht.ecr, ?_, ?_⟩⟩
    · unfold taxBrackets
      rw [hg]; simp only [hk, hB0]
      rw [ht.eadj, S.adj, ok_bind, ht', ok_bind]
    · intro j hj
      obtain ⟨v, hv⟩ := Dict.mem_keys_iff.1 (ht.sub j hj)
      rw [Dict.mem_keys_iff, i7]
      split
      · exact ⟨_, rfl⟩
      · exact ⟨v, hv⟩
    · intro y' B' hB'
      rw [i7] at hB'
      split at hB'
      · next h => subst h; cases hB'; exact htab
      · exact ht.tab y' B' hB'

/-- `accum(year)` is only asked for years with an original table. -/
def Query.AccumSafe (br : Dict ℤ (Dict K K)) : Query K → Prop
  | .accum y => y ∈ Dict.keys br
  | _ => True

/-- In two objects in good states every (safe) query has the same answer, and leaves the object
in a good state. -/
theorem query_good {br : Dict ℤ (Dict K K)} {pd cr : Dict ℤ K} {adj : Adjust K}
    {idx : ℤ → K} (S : Setting br adj idx) {t s : Tax K} (ht : Good br pd cr adj idx t)
    (hs : Good br pd cr adj idx s) {q : Query K} (hq : q.AccumSafe br) :
    (query t q).map Prod.fst = (query s q).map Prod.fst ∧
    ∀ a t', query t q = .ok (a, t') → Good br pd cr adj idx t' := by
  have htb : ∀ y, ∃ B t' s', taxBrackets t y = .ok (B, t') ∧ taxBrackets s y = .ok (B, s') ∧
      Good br pd cr adj idx t' := by
    intro y
    obtain ⟨B, t', h1, h2, h3⟩ := taxBrackets_good S ht y
    obtain ⟨B', s', h1', h2', -⟩ := taxBrackets_good S hs y
    rw [h2.unique h2'] at h1
    exact ⟨B', t', s', h1, h1', h3⟩
  have hcr : ∀ y, creditRate t y = creditRate s y := by
    intro y; unfold creditRate; rw [ht.ecr, hs.ecr]
  have hpd : ∀ y, personalDeduction t y = personalDeduction s y := by
    intro y; unfold personalDeduction; rw [ht.epd, hs.epd, ht.eadj, hs.eadj]
  cases q with
  | brackets y =>
    obtain ⟨B, t', s', h1, h2, h3⟩ := htb y
    simp only [query, h1, h2, ok_bind]
    exact ⟨rfl, by rintro a t1 ⟨⟩; exact h3⟩
  | marginalBracket x y =>
    obtain ⟨B, t', s', h1, h2, h3⟩ := htb y
    obtain ⟨b, hb, e⟩ := marginalBracket_eq ht.inv h1 x
    obtain ⟨b', hb', e'⟩ := marginalBracket_eq hs.inv h2 x
    rw [hb] at hb'; cases hb'
    simp only [query, e, e', ok_bind]
    exact ⟨rfl, by rintro a t1 ⟨⟩; exact h3⟩
  | marginalRate x y =>
    obtain ⟨B, t', s', h1, h2, h3⟩ := htb y
    obtain ⟨b, hb, -, e⟩ := marginalRate_eq ht.inv h1 x
    obtain ⟨b', hb', -, e'⟩ := marginalRate_eq hs.inv h2 x
    rw [hb] at hb'; cases hb'
    simp only [query, e, e', ok_bind]
    exact ⟨rfl, by rintro a t1 ⟨⟩; exact h3⟩
  | money x y d c =>
    obtain ⟨B, t', s', h1, h2, h3⟩ := htb y
    have e : ∀ (u u' : Tax K), Inv u → taxBrackets u y = .ok (B, u') →
        taxMoney u x y d c = (do
          let b ← pickBracket B (x - d)
          let rate ← getItem B b
          let a ← accumTable B
          let acc ← getItem a b
          let cr ← creditRate u y
          .ok (max (acc + (x - d - b) * rate - c * cr) 0, u')) := by
      intro u u' hu hb
      obtain ⟨i1, -, i3, -, i5, ⟨a, i6, i7⟩, -, i8, -⟩ := taxBrackets_inv hu hb
      obtain ⟨b, hb'⟩ := pickBracket_ok i5 (x - d)
      have hc : creditRate u' y = creditRate u y := by unfold creditRate; rw [i8]
      unfold taxMoney marginalBracket
      simp only [hb, i3, ok_bind, hb', i6, i7, hc]
    simp only [query, e t t' ht.inv h1, e s s' hs.inv h2, hcr]
    cases pickBracket B (x - d) with
    | error e => exact ⟨rfl, by rintro a t1 ⟨⟩⟩
    | ok b =>
      cases hg1 : getItem B b with
      | error e => simp only [ok_bind, hg1]; exact ⟨rfl, by rintro a t1 ⟨⟩⟩
      | ok rate =>
        cases accumTable B with
        | error e => simp only [ok_bind, hg1]; exact ⟨rfl, by rintro a t1 ⟨⟩⟩
        | ok a =>
          cases hg2 : getItem a b with
          | error e => simp only [ok_bind, hg1, hg2]; exact ⟨rfl, by rintro a t1 ⟨⟩⟩
          | ok acc =>
            cases creditRate s y with
            | error e => simp only [ok_bind, hg1, hg2]; exact ⟨rfl, by rintro a t1 ⟨⟩⟩
            | ok cr =>
              simp only [ok_bind, hg1, hg2]
              exact ⟨rfl, by rintro a t1 ⟨⟩; exact h3⟩
  | personal y =>
    simp only [query, hpd]
    cases personalDeduction s y with
    | error e => exact ⟨rfl, by rintro a t1 ⟨⟩⟩
    | ok v => exact ⟨rfl, by rintro a t1 ⟨⟩; exact ht⟩
  | creditRate y =>
    simp only [query, hcr]
    cases creditRate s y with
    | error e => exact ⟨rfl, by rintro a t1 ⟨⟩⟩
    | ok v => exact ⟨rfl, by rintro a t1 ⟨⟩; exact ht⟩
  | accum y =>
    obtain ⟨Bt, hBt⟩ := Dict.mem_keys_iff.1 (ht.sub y hq)
    obtain ⟨Bs, hBs⟩ := Dict.mem_keys_iff.1 (hs.sub y hq)
    have := (ht.tab y Bt hBt).unique (hs.tab y Bs hBs)
    subst this
    obtain ⟨-, -, a, ha, hat⟩ := ht.inv.table y _ hBt
    obtain ⟨-, -, a', ha', has⟩ := hs.inv.table y _ hBs
    rw [ha] at ha'; cases ha'
    simp only [query, accum, hat, has, ok_bind]
    exact ⟨rfl, by rintro _ t1 ⟨⟩; exact ht⟩

theorem init_good {br : Dict ℤ (Dict K K)} {pd cr : Dict ℤ K} {adj : Adjust K}
    {idx : ℤ → K} (S : Setting br adj idx) {t : Tax K} (h : init br pd cr adj = .ok t) :
    Good br t.personal t.creditRates adj idx t := by
  obtain ⟨h1, h2, h3⟩ := init_inv S.args h
  refine ⟨h1, h2, rfl, rfl, ?_, ?_⟩
  · intro k hk
    obtain ⟨v, hv⟩ := Dict.mem_keys_iff.1 hk
    exact Dict.mem_keys_iff.2 ⟨v, by rw [h3]; exact hv⟩
  · intro y B hB
    rw [h3] at hB
    refine ⟨y, B, nearest_self (Dict.mem_keys_iff.2 ⟨B, hB⟩), hB, ?_⟩
    rw [div_self (S.pos y).ne']
    simp

theorem run_good {br : Dict ℤ (Dict K K)} {pd cr : Dict ℤ K} {adj : Adjust K}
    {idx : ℤ → K} (S : Setting br adj idx) {t : Tax K} (ht : Good br pd cr adj idx t)
    (qs : List (Query K)) (hqs : ∀ q ∈ qs, q.AccumSafe br) : Good br pd cr adj idx (run t qs) := by
  induction qs generalizing t with
  | nil => exact ht
  | cons q qs ih =>
    simp only [run, List.foldl_cons]
    refine ih ?_ fun q' hq' => hqs q' (by simp [hq'])
    split
    · next a t' h => exact (query_good S ht ht (hqs q (by simp))).2 a t' h
    · exact ht

/-- **C30** (`accum` may only be asked for the years with original tables; the general claim is
refuted by `C30_accum_poisons_cache`). Whatever has been asked (and cached) before, every
question gets the answer that a fresh object would have given. -/
theorem C30_history_independent {br : Dict ℤ (Dict K K)} {pd cr : Dict ℤ K}
    {adj : Adjust K} {idx : ℤ → K} (S : Setting br adj idx) {t : Tax K}
    (h : init br pd cr adj = .ok t) (qs : List (Query K)) (hqs : ∀ q ∈ qs, q.AccumSafe br)
    (q : Query K) (hq : q.AccumSafe br) :
    (query (run t qs) q).map Prod.fst = (query t q).map Prod.fst :=
  (query_good S (run_good S (init_good S h) qs hqs) (init_good S h) hq).1

/-- **C30.** After any such history, the table of a year is that of the nearest original year
(in the sense of `nearest_year`), its thresholds multiplied by the price index ratio and its
rates unchanged. -/
theorem C30_table {br : Dict ℤ (Dict K K)} {pd cr : Dict ℤ K}
    {adj : Adjust K} {idx : ℤ → K} (S : Setting br adj idx) {t : Tax K}
    (h : init br pd cr adj = .ok t) (qs : List (Query K)) (hqs : ∀ q ∈ qs, q.AccumSafe br)
    (y : ℤ) :
    ∃ o B0 t', nearestYear br y = some o ∧ Dict.get? br o = some B0 ∧
      taxBrackets (run t qs) y
        = .ok (B0.map fun kv => (kv.1 * (idx y / idx o), kv.2), t') := by
  obtain ⟨B, t', h1, ⟨o, B0, h2, h3, rfl⟩, -⟩ :=
    taxBrackets_good S (run_good S (init_good S h) qs hqs) y
  exact ⟨o, B0, t', h2, h3, h1⟩

/-- **C30.** After any such history, the personal deduction of a year is the given one, or that of
the nearest given year scaled by the price index, or zero if none was given at all; and the
credit rate is the one given for the nearest year, or 1 if none was given. -/
theorem C30_deduction_and_credit_rate {br : Dict ℤ (Dict K K)} {pd cr : Dict ℤ K}
    {adj : Adjust K} {idx : ℤ → K} (S : Setting br adj idx) {t : Tax K}
    (h : init br pd cr adj = .ok t) (qs : List (Query K)) (hqs : ∀ q ∈ qs, q.AccumSafe br)
    (y : ℤ) :
    (pd = [] → personalDeduction (run t qs) y = .ok 0) ∧
    (∀ o v, nearestYear pd y = some o → Dict.get? pd o = some v →
      personalDeduction (run t qs) y = .ok (v * (idx y / idx o))) ∧
    (cr = [] → creditRate (run t qs) y = .ok 1) ∧
    (∀ o v, nearestYear cr y = some o → Dict.get? cr o = some v →
      creditRate (run t qs) y = .ok v) := by
  have hg := run_good S (init_good S h) qs hqs
  -- the tables in use
  have htab : (pd = [] → ∃ m, t.personal = [(m, 0)]) ∧ (pd ≠ [] → t.personal = pd) ∧
      (cr = [] → ∃ m, t.creditRates = [(m, 1)]) ∧ (cr ≠ [] → t.creditRates = cr) := by
    unfold init at h
    simp only [bind_ok_iff, Except.ok.injEq] at h
    obtain ⟨t0, -, p, hp, c, hc, rfl⟩ := h
    have od : ∀ (tab : Dict ℤ K) (v : K) r, orDefault tab t0.brackets v = .ok r →
        (tab = [] → ∃ m, r = [(m, v)]) ∧ (tab ≠ [] → r = tab) := by
      intro tab v r hr
      unfold orDefault at hr
      cases tab with
      | nil =>
        simp only at hr
        split at hr
        · cases hr
        · cases hr; exact ⟨fun _ => ⟨_, rfl⟩, fun hn => absurd rfl hn⟩
      | cons a l => cases hr; exact ⟨fun hn => (by simp at hn), fun _ => rfl⟩
    exact ⟨(od pd 0 p hp).1, (od pd 0 p hp).2, (od cr 1 c hc).1, (od cr 1 c hc).2⟩
  obtain ⟨p1, p2, c1, c2⟩ := htab
  have nk : ∀ {V : Type} (d : Dict ℤ V) (d' : Dict ℤ (Val K)), Dict.keys d' = Dict.keys d →
      nearestYear d' y = nearestYear d y := by
    intro V d d' hk
    cases hn : nearestYear d y with
    | none =>
      rw [(C09_nearest_year d y).1] at hn
      subst hn
      have : d' = [] := by
        cases d' with
        | nil => rfl
        | cons a l => simp [Dict.keys] at hk
      rw [(C09_nearest_year d' y).1]; exact this
    | some k =>
      rw [(C09_nearest_year d y).2 k] at hn
      rw [(C09_nearest_year d' y).2 k, hk]
      exact hn
  have val : ∀ (tab : Dict ℤ K), (run t qs).personal = tab → ∀ o v, nearestYear tab y = some o →
      Dict.get? tab o = some v →
      personalDeduction (run t qs) y = .ok (v * (idx y / idx o)) := by
    intro tab ht o v ho hv
    unfold personalDeduction
    rw [ht, hg.eadj]
    obtain ⟨x1, x2, -⟩ := C10_extend (Dict.mapVals Val.scalar tab) adj y
    by_cases hy : y ∈ Dict.keys tab
    · have hoy : o = y := by
        have := nearest_self hy
        rw [this] at ho; cases ho; rfl
      subst hoy
      rw [x1 (.scalar v) (by rw [Dict.get?_mapVals, hv]; rfl), ok_bind, div_self (S.pos o).ne',
        mul_one]
    · have hne : tab ≠ [] := by rintro rfl; simp [Dict.get?] at hv
      obtain ⟨b, w, -, hb, hw, hc⟩ := x2 (by rw [Dict.keys_mapVals]; exact hy)
        (by simpa [Dict.mapVals] using hne)
      rw [nk tab _ (Dict.keys_mapVals _ _), ho] at hb; cases hb
      rw [Dict.get?_mapVals, hv] at hw; cases hw
      obtain ⟨w, h1, h2⟩ := hc _ (S.adj y o)
      rw [h1, ok_bind]
      cases h2
      rfl
  have rate : ∀ (tab : Dict ℤ K), (run t qs).creditRates = tab → ∀ o v,
      nearestYear tab y = some o → Dict.get? tab o = some v →
      creditRate (run t qs) y = .ok v := by
    intro tab ht o v ho hv
    unfold creditRate
    rw [ht, ho]
    simp only [hv]
  have single : ∀ (m : ℤ) (v : K), nearestYear [(m, v)] y = some m := by
    intro m v
    rw [(C09_nearest_year [(m, v)] y).2 m]
    refine ⟨by simp [Dict.keys], ?_⟩
    rcases lt_trichotomy m y with h | h | h
    · exact Or.inr (.inl ⟨by simp [Dict.keys, h.ne'], h, by simp [Dict.keys]⟩)
    · exact Or.inl h
    · exact Or.inr (.inr ⟨h, by simp [Dict.keys]⟩)
  refine ⟨?_, ?_, ?_, ?_⟩
  · intro e
    obtain ⟨m, hm⟩ := p1 e
    rw [val [(m, 0)] (hg.epd.trans hm) m 0 (single m 0) (by simp [Dict.get?]), zero_mul]
  · intro o v ho hv
    exact val pd (hg.epd.trans (p2 (by rintro rfl; simp [Dict.get?] at hv))) o v ho hv
  · intro e
    obtain ⟨m, hm⟩ := c1 e
    exact rate [(m, 1)] (hg.ecr.trans hm) m 1 (single m 1) (by simp [Dict.get?])
  · intro o v ho hv
    exact rate cr (hg.ecr.trans (c2 (by rintro rfl; simp [Dict.get?] at hv))) o v ho hv

example : (query (run sampleTax [.money 500 2015 0 0, .brackets 1990]) (.creditRate 2012)).map
      Prod.fst = .ok (.amount (1 / 2)) ∧
    (query (run sampleTax [.brackets 1990]) (.personal 2012)).map Prod.fst = .ok (.amount 100) := by
  constructor <;> decide +kernel

theorem sample_setting : Setting sampleBrackets sampleAdjust
    (fun y => if y < 2010 then (1 : ℚ) else 2) :=
  ⟨sample_args, by decide +kernel, fun y => by split <;> norm_num, fun _ _ => rfl⟩

example : (query (run sampleTax [.money 500 2015 0 0, .brackets 1990]) (.money 500 2012 0 0)).map
    Prod.fst = .ok (.amount 80) := by decide +kernel

/-- **C30 is false in general**: asking for `accum(2015)` first makes the object tax 2015 with
doubled rates and unadjusted thresholds: tax on 500 is 180 instead of 80. -/
theorem C30_accum_poisons_cache :
    Reachable sampleTax ∧
    (query sampleTax (.money 500 2015 0 0)).map Prod.fst = .ok (.amount 80) ∧
    (query (run sampleTax [.accum 2015]) (.money 500 2015 0 0)).map Prod.fst = .ok (.amount 180) :=
  ⟨sample_reachable [], by decide +kernel, by decide +kernel⟩

end Forecaster.Tax
